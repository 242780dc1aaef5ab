# Formal model of OpenAHRS_RustLib in Lean 4

Everything lives in `lean/` (Lake project `Verif`).  `properties.jsonl` lists the claims,
`MANIFEST.json` maps each claim to the theorems that prove it, `seeded/LOG.jsonl` records the
experiments with wrong programs.

## 1. What is modelled

| Rust source (`/repo`) | Lean model | Not modelled |
|---|---|---|
| `utils/src/lib.rs` | `Verif/Model/Utils.lean` | – |
| `linalg/src/common.rs` | `Verif/Model/Common.lean` | – |
| `linalg/src/vector.rs` | `Verif/Model/Vector.lean` | – (`print` is in `Verif/Model/Print.lean`) |
| `linalg/src/matrix.rs` | `Verif/Model/Matrix.lean`, `Verif/Model/Decomp.lean`, `Verif/Model/Print.lean` | – |
| `linalg/src/linalg.rs` | `Verif/Model/Decomp.lean` | commented-out code |
| `quaternion/src/quaternion.rs` | `Verif/Model/Quaternion.lean` | – |
| `open_ahrs/src/{gyrometer,accelerometer,magnetometer}.rs` | `Verif/Model/{Gyrometer,Accelerometer,Magnetometer}.lean` | – |
| `open_ahrs/src/common.rs` | `Verif/Model/AhrsCommon.lean` | the concrete random generator (its draws are an input of the model) |
| `open_ahrs/src/{ar,aqua,davenport}.rs` | `Verif/Model/{Ar,Aqua,Davenport}.lean` | – |
| `dsp/src/{complex,fft}.rs` | `Verif/Model/Dsp.lean` | – |
| `pid/src/lib.rs` | `Verif/Model/Pid.lean` | – |
| `open_ahrs/src/lib.rs` (the test) | `Verif/Model/AhrsTest.lean`, `Verif/Model/Print.lean` | – |
| `temp/dsp/src/main.rs` | `Verif/Model/TempDsp.lean`, `Verif/Model/Print.lean` | – |

Empty files: `open_ahrs/src/{ekf,flae,famc}.rs`, `dsp/src/{hpf,lpf}.rs`.  `temp/` is outside the workspace: a prototype binary of `dsp`, and a
copy of `utils` that differs from `utils` only in `const fn factorial`.  The unit tests of `linalg` and `quaternion` are in `Verif/RepoTests.lean`: each assertion
that does not need a trigonometric function is evaluated in the model by the kernel, in binary32 (a check of the model, not a claim).  `generate_raw_measurements.py` is modelled over the real numbers (`Model/Measurements.lean`): numpy's `radians`, `sin`, `cos`, `tan`, `linalg.inv` are the exact functions, `inv` raises an exception on a singular matrix, and formatting to three decimals is left to the comparison with `build/raw_measurements.csv` in C98.

### 1.1 How Rust is rendered

* **Scalars.**  Every function is polymorphic in a type `F` with an instance of `Scalar F`
  (`Verif/Scalar.lean`): a signature containing literals, the f32 operations, the libm functions, the
  comparisons and the NaN/Inf tests, *without any algebraic law*.  A theorem stated for all `F` therefore holds for
  IEEE-754 binary32 with whatever libm is linked.  The only law ever assumed (class `ScalarLawful`)
  is that the literals 0.0 and 1.0 (and the tolerance EPSILON where needed) are finite; claim C60 adds the class
  `Comparable`, the laws of IEEE comparison.
* **Binary32.**  `Verif/F32.lean` gives the instance `F32`: rational arithmetic rounded to nearest, ties to even, with
  subnormals and overflow to infinity, a correctly rounded square root, and one zero.  It shows that the laws just mentioned
  hold of binary32, and gives concrete binary32 cases.  Its libm functions are placeholders and nothing is claimed about them.
* **Rounding.**  `Verif/Rounded.lean` states the laws of IEEE 754 that the claims about rounding use (class `Rounded`: relative error
  2⁻²⁴ plus 2⁻¹⁵⁰, no overflow up to 2¹²⁷, overflow to +inf, exact comparison and negation) and proves them for `F32` with *any*
  sin, cos, acos, asin, exp, atan2, pow.  Claims from C76 on that mention binary32 are theorems about every arithmetic with these laws.
  `C90_lost` also uses the class `Grid` (`Verif/Grid.lean`, proved for `F32`): the result of an operation is zero or at least 2⁻¹⁴⁹ in size.
  C93 uses the class `Literals` (`Verif/Literals.lean`, proved for `F32`): a literal is rounded to nearest, and integers below 2²⁴ are exact.
  C94 uses the class `Propagates` (`Verif/Propagate.lean`, proved for `F32`): a sum, difference or product with an operand that is infinite or NaN is not finite.
  C82, C83 and C93 also assume the class `Trig`: sinf and cosf of a finite number are finite and within 2⁻²² of the real function (an error
  of a few ulp).  `F32T` is binary32 with such functions, so the assumption is satisfiable.
  C104 assumes the class `Arcs`: asinf and atan2f are within 2⁻²¹ of an exact angle, and asinf is NaN outside [-1, 1].  `F32A` is binary32 with such functions, `F32E` one that has the functions of `F32T` and of `F32A`.  C114 assumes the class `Powers`: powf with exponents 1 to 20 is within 2⁻²² relative (or 2⁻¹⁴⁸) of the exact power below 2¹²⁶; `F32` itself has it by correct rounding.
  C105 assumes for `slerp` the class `Acos`: acosf is within 2⁻²¹ on [-1, 1].  `F32S` is binary32 with such a function.
  C109 uses the class `TextLaw` (`Verif/Props/Print.lean`, proved for a formatting of `F32`): a number is printed in decimal, rounded to nearest, with the sign of the number.
* **Exact arithmetic.**  `Verif/Ext.lean` gives the instance `Ext K`: a linearly ordered field `K` extended with
  `+inf`, `-inf` and `nan` following the IEEE special-case tables (x/0 = ±inf or nan, inf-inf = nan, comparisons with nan
  false, sqrt of a negative = nan, acos/asin outside [-1,1] = nan).  There is no rounding, no overflow and a single
  zero.  `Ext ℝ` uses the real functions; `Ext ℚ` is computable and is used for concrete witnesses.
  Claims that mention *exact arithmetic* are theorems about this instance.  They say nothing about the
  size of rounding errors; those are the subject of C76 and later.
* **Errors, panics and state.**  `Res ε α = Except (Fail ε) α` where `Fail ε` is either `err e` (a Rust `Err(e)`) or `panic`.
  A `&mut self` method is an `Op ε σ α = σ → Res ε α × σ`: the state is returned in all cases, so a
  partial write made before an error is visible.  `?` is monadic bind.  `match … { Err(_) => … }` catches `err` only.
* **Integers.**  `u8` values are natural numbers.  Where a user-controlled value is added or subtracted
  (`row + 1`, `rows - 1`, `m - 2`, `factorial`) the model calls `u8Add`/`u8Sub`/`u64Mul`, which panic
  when `Scalar.overflowChecks` is true (debug profile) and wrap modulo 2^8 / 2^64 otherwise.  All theorems for all `F`
  hold for both settings unless they name one.  Loop counters bounded by a u8 cannot overflow and use plain addition.  `i8` in `diag`
  is an integer with checked operations.
* **Arrays.**  `[f32; 4]`, `[f32; 16]` are functions on `Fin 4`, `Fin 16`; an index outside is `panic`.
* **Loops.**  `for` over a range is `forRange` (stateful) or `foldRange` (local accumulators), both structural recursion.
  The one `while` loop (`dftmerge`) is a fuel-indexed function into `Option`.
* **Borrowing.**  Rust forbids aliasing of `&mut self` with the other operands, so operands are plain values.

### 1.2 Layout

* `Verif/Basic.lean`, `Scalar.lean`, `Ext.lean`, `F32.lean`, `Rounded.lean`, `Grid.lean`, `Literals.lean`, `Monotone.lean`, `Propagate.lean`: the vocabulary above.
* `Verif/Model/*.lean`: the model; every definition cites file and lines.
* `Verif/Lib/*.lean`: lemmas about the model and the loop combinators; no claims.
* `Verif/Props/*.lean`: the claims.  A theorem named `Cnn_…` belongs to claim `Cnn`; the cases that meet its hypotheses
  are `example`s in the same file.

The vocabulary a reader needs for the statements is small: `VecIs v n f` / `MatIs m r c f` (through `get_rows`, `get_cols`,
`get_element` the object has this shape and these elements), `QuatIs v q` (the four components of a Mathlib quaternion),
`toMatrix r c A` (a Mathlib matrix), `Finite x` (passes the NaN and Inf tests), and Mathlib's `Matrix`, `Quaternion`, `Real`.

## 2. Trusted base

* The Lean 4.33.0 kernel.
* Axioms: at most `propext`, `Classical.choice`, `Quot.sound`; section 7 lists them per theorem.  No own axioms, no `sorry`,
  no `native_decide`, no `bv_decide`, no `unsafe`/`implemented_by`.  Closed computations use `decide +kernel`, which is kernel reduction.
* Mathlib's definitions where statements use them (`Matrix.det`, `Matrix.adjugate`, `Quaternion`, `NormedSpace.exp`, `Real.arccos`, …).
* The transcription from Rust to Lean, done by hand; each definition cites file and lines.
* For the claims in exact arithmetic: the idealisation described above.
* For the claims in binary32: that the hardware obeys the laws of `Rounded` (proved for `F32`), in particular no flush to zero and no
  contraction into fused multiply-add; negative zero is identified with zero.  For C82, C83 and C93 also that the linked sinf and cosf
  are within 2⁻²² (class `Trig`), for C104 that asinf and atan2f are within 2⁻²¹ (class `Arcs`), for C105 that acosf is (class `Acos`), and for C114 that powf is accurate for small integer exponents (class `Powers`).
* The Rust compiler, libm and hardware are outside the model.

## 3. Techniques

* **Histories (H).**  Public calls are data (`VecCall`, `MatCall`, `PureCall`, …) with an interpreter into the model; a mutual
  inductive predicate says which objects are reachable from `new` by any finite number of calls, successful or failed,
  with reachable operands.  Claims about all histories are inductions over that predicate, using a Hoare-style rule set for `Op`, `Res` and the loop combinators.
* **Write loops (W).**  Every element-wise method is a loop that stores `val 0, val 1, …` in row-major order and stops at the first
  non-finite value.  One lemma describes the final state and the result of such a loop; all shapes, all `F`.
  A nested row/column loop is first rewritten to a single loop over the flat index.
* **API view (V).**  Property statements are written with `VecIs`, `MatIs` and Mathlib's types.
* **Exact instance (X).**  The statement is about `F = Ext ℝ` (or `Ext K`); operations on finite values reduce to field operations.
* **Witness (N).**  A false claim is refuted by a concrete input evaluated by the kernel, and the true remainder is kept.

## 4. Plan per property

| Id | What is modelled | Proof |
|---|---|---|
| C01, C02 | all public vector/matrix/quaternion calls | H with the invariant "rows, cols ≤ 4, positive when initialised, all elements finite" |
| C03 | as C01, plus all integer arithmetic | H: each call is panic free under the invariant, except the listed ones, for which a panic is exhibited |
| C04–C07 | init, reinit, set/get element | case analysis of the method on an arbitrary state, V |
| C08–C11 | element-wise families | W + V, all `F` |
| C12 | `mul`, `mul_new` | W with the accumulation as a fold; X for the product law against Mathlib `Matrix` multiplication; loop invariant for the cells left by a failure |
| C13 | `transpose`, `transpose_new` | loop invariant on the set of swapped pairs / W for the rectangular case |
| C14 | row/column views | W + V |
| C15–C17 | `add_row`, `add_col`, `del_row` | reverse-loop invariant (rows above the cursor already moved), V |
| C18 | `diag` | arithmetic on `i8` ranges + W |
| C19, C20 | comparison predicates | `allRange` lemma: true iff all tests true |
| C21 | `generate_permutations`, `count_inversions`, `det_naive` | the generated table is shown (kernel evaluation, closed finite table) to list each permutation once with its sign; sum over it = Mathlib `Matrix.det` |
| C22 | `lup` | loop invariant: partial product of the recorded multipliers and the remaining matrix equals the permuted input |
| C23 | `solve` | forward and backward substitution invariants |
| C24 | `invert` | C23 per column, then transposition |
| C25 | `det` | C22 + determinant of the permutation; sign rule over the permutations of 4 rows; N for 4×4 and for Singular |
| C26 | `lr`, all sizes | loop invariant with the sum carried over; the exact defect of `L * R`; for size 3 exactly when it vanishes; a witness by evaluation |
| C27 | `lu_crout`, all sizes | loop invariant with both sums carried over; the exact defect of `L * U` and the exact condition for returning; a witness by evaluation |
| C28 | `qr_decomp` | invariant: processed columns orthonormal, span preserved; X |
| C29 | `chol` | invariant on processed columns; X; N for nearly symmetric input |
| C30 | `eigen` | invariants of the iteration: eigenvalues are zero while not converged; similarity by C28 |
| C31 | norm, normalize | W + X |
| C32 | lerp, slerp | W + X, trigonometric identities, also for two parameters |
| C33 | dot, outer, trace, Frobenius, conversion | fold lemmas, X |
| C34, C35 | quaternion product, conjugate, inverse | symbolic execution; X against Mathlib `Quaternion` |
| C36, C37 | `convert_to_dcm`, `rotate` | symbolic execution; X; `nlinarith`/`ring` identities |
| C38–C40 | DCM to quaternion | symbolic execution; X; square-root identities; N |
| C41 | exp | X against `NormedSpace.exp` on quaternions |
| C42–C45, C66, C67 | three sensors | symbolic execution over an arbitrary sensor satisfying the invariant established by `new` and preserved by every call |
| C46–C51, C68 | AR filter | life-cycle invariants over histories; X for the integration formulas; `factorial` by induction |
| C52–C56, C69–C71 | AQUA filter | life-cycle invariants; X for norms and corrections; gain by case analysis |
| C57 | Davenport filter | life-cycle invariant "accelerometer never initialised" |
| C58, C59 | complex, bit reversal | X; bit reversal by evaluation of the 9 × 256 table (the whole input space) |
| C60 | helpers | case analysis, any `F` with the IEEE order laws |
| C61 | random attitudes | integer division of any 64-bit draw is 0 or 1 |
| C62 | orthogonality tests | C12, C13, C19, C25 |
| C63 | copies | W + V |
| C64 | Euler angles | X, `Complex.arg` for `atan2`, `Real.arcsin` |
| C65 | `is_positive_definite` | C25 on each leading block; N |
| C72, C73 | quaternion accessors and predicates | symbolic execution, all `F`; X for the predicates |
| C74 | `log`, `log_in_place` | W; X; formula of Rodrigues |
| C75 | `adjugate_in_place`, `dlyap` | C25, W; N |
| C76–C78 | dot product, matrix product, norm, `normalize`, `is_versor` | standard error analysis of the accumulation over `Rounded`; case split on overflow |
| C79 | quaternion product in binary32 | the four sums of four products, each with the analysis of C76; Cauchy–Schwarz |
| C80 | AR filter in binary32 | case analysis of `normalize` (C77) at the end of each update; invariant over call histories |
| C81 | sensor calibration in binary32 | subtraction, then the scalar product of C76 |
| C82 | one AR closed-form step in binary32 | forward error analysis of angle, sine/cosine, matrix, product and normalisation; class `Trig` for libm |
| C83 | AR closed form over sample sequences in binary32 | C81 + C82; the exponential of pure quaternions is 1-Lipschitz; induction over the list |
| C84 | `eigen`, shifted | the shift stays in the middle half of the spectrum of a symmetric 2×2 matrix, so each QR step is regular; similarity as in C30 |
| C85 | `eigen` of orthogonal matrices | the QR factors are unique, so the matrix is a fixed point; the convergence test passes at the second step |
| C86 | Uninitialised objects | unfold each method; a loop whose first step fails returns that failure with the state unchanged |
| C87 | Operands of the wrong shape | unfold each method down to its size test |
| C88 | Direction cosine matrix and rotation in binary32 | error of each entry by the relative-error law; rows as rounded inner products; defect of the norm split off exactly |
| C89 | AM alignment in binary32 | exact partial quaternions of the *computed* direction, so the sign test agrees; error calculus `Apx`; conjugation by nearby quaternions |
| C90 | AQUA attitude in binary32: unit or lost | frame relation `Lost` carried through every branch of `update`; products with zero by the grid law; overflow witness by kernel evaluation |
| C91 | complex numbers of `temp/dsp` | case analysis over finiteness for any scalars; `Ext ℝ` against `ℂ` |
| C92 | its Fourier transform | inversion of the two nested loops into left-to-right sums; comparison with `ZMod.dft` of Mathlib; `dft_dft` |
| C93 | the same in binary32, and `main` | `Apx` calculus for angle, product and sum; spectrum of the signal through the inverse transform |
| C94 | LUP, `solve` and `invert` in binary32: componentwise backward error, no size hypotheses | inversion of the loops (every store is validated, so a success gives finiteness), error recurrence per elimination step; unstable system by evaluation in `F32` |
| C95 | the simulated sensors of the open_ahrs test | loop invariants over the filled columns, Mathlib quaternions |
| C96 | what the open_ahrs test prints | all attitudes are rotations about `y`, so both filters reduce to angles; bounds by `sin` and `arctan` |
| C97 | unshifted `eigen` on symmetric positive definite matrices: iterations needed, accuracy of the results, an inexact case | the sums of leading diagonal elements grow by the squares that leave the diagonal blocks (`QrAscent`), which bounds both the number of iterations and what is left outside the diagonal; Bauer–Fike for symmetric matrices; evaluation in `F32` |
| C98 | `generate_raw_measurements.py` and the file it wrote | exact inverse of the rate matrix, derivative of the rotation matrix, C64 and C37 for the comparison with `rotate`; the file by rational balls around `cos 1°` and `sin 1°` |
| C99 | `det_naive` and `det` in binary32: error bounds without size hypotheses | error recurrences of products and sums on the expansion of C21; backward error of `lup` (C94), determinant of the factors |
| C100 | `chol` in binary32: componentwise backward error of the lower part, large elements above the diagonal | inversion of the column loop, error of one element, Cauchy–Schwarz; witnesses by evaluation in `F32` |
| C101 | `qr_decomp` in binary32: residual, lengths and orthogonality of the columns, loss of orthogonality | modified Gram–Schmidt error analysis in a Euclidean space, carried through the loops; witnesses by evaluation in `F32` |
| C102 | `FFT::dftmerge` | each round succeeds or panics on an index; downward induction over the powers of two; the counter after 128 |
| C103 | `sarabandi`, `hughes`, `chiaverini` in binary32, on the computed matrix | error of the entries (C88), then of the square roots and quotients; witnesses by evaluation in `F32` |
| C104 | `convert_to_euler` in binary32 | error of the five arguments; perturbation of `arg` and `arcsin`; class `Arcs` for libm; the matrix as a product of three turns |
| C105 | `lerp`, `slerp` in binary32; `slerp` of a unit vector with itself | error of the angle, of the weights, of the combination; class `Acos` for libm; a witness for every library |
| C106 | AR, Euler's method in binary32 | rounding of one step; induction over the samples; the normalised step is a rotation by `2 arctan` of half the angle |
| C107 | `lup`, `det`, `invert`: when they succeed | the pivot search of each step followed through; induction for triangular matrices; N |
| C108 | `det`, `is_so_n`, `is_orthogonal`, `log` on turns about the axes | C107, case by case in the signs of cosine and sine |
| C109 | `print`, `print_attitude`, the text of the programs | the output is the state of an `Op`; texts that end at a separator are unique; class `TextLaw` for the formatting, proved for a formatting of `F32`; C93 for the numbers |
| C110 | AQUA MARG, constant gain, at rest: contraction of the tilt, local convergence | closed form of one correction; invariant neighbourhood; induction over the updates |
| C111 | AQUA MARG, one update in binary32 | error of each stage (prediction, rotation back, correction quaternions, interpolation, product, normalisation) against the exact stage from the same numbers |
| C112 | AQUA MARG at rest in binary32, any number of updates | C111, contraction as in C110, closure of the bounds under one update |
| C113 | AR Taylor series: shaking about an axis, reversing a rate | the ratio of the components follows a Möbius map with an attracting fixed point; products with a conjugate; symmetric part of the series |
| C114 | AR Taylor series in binary32 (powf within two ulp) | error of powers, coefficients, sums and rows; distance of the series from one Euler step and from the exponential; induction over samples |
| C115 | AR against a continuous motion; Euler does not follow | derivative of q(t) exp(-t w/2) and the mean value inequality, forwards and backwards from the sampling time; induction over samples; powers of one Euler step |
| C116 | AQUA MARG while the sensor turns about the vertical | closed form of one update on headings; recursion of the lag, its monotonicity, limit and lower bound by concavity of sine; motion bounds of C115 for gains 0 |
| C117 | `qr_decomp` and the unshifted `eigen` of a well conditioned matrix in binary32 | the computed columns are nearly combinations of the matrix columns, so the coefficients on the diagonal and hence the scalar products are bounded (from C101); operator-norm bounds for one iteration, by induction over the iterations |
| C118 | `conjugate`, `invert`, `exp`, `exp_new` of quaternions in binary32 | component bounds relative to the components, so that the norm of the error is relative to the norm; `norm_cases` for the thresholds and the overflow |
| C119 | AQUA MARG, constant gain: the tilt under any errors, rates and motion; when one update succeeds | C110's contraction at the predicted attitude, Lipschitz bounds of the tilt in the attitude and the vector, invariant region, induction over the updates |
| C120 | AQUA MARG, constant gain, in binary32: tilt and heading under any errors, rates and motion within bounds; every update succeeds | C111 at the predicted attitude, Lipschitz bounds of tilt and heading, closure of the bounds under one update |
| C121 | complex numbers of `dsp` and `temp/dsp` in binary32: all operations | bounds on the parts relative to the modulus (Cauchy–Schwarz for the two products); overflow through the laws of infinity |
| C122 | `is_orthogonal`, `is_so_n`, `det` (3×3), `adjugate_in_place` in binary32 | forward run of `lup` with its pivots, error of the Schur complement divided by the pivot, determinant of the Gram matrix, cofactors from `G·cof = det·A` |
| C123 | `log`, `log_in_place` (3×3) in binary32 | error of the computed angle `arccos`, quotient `θ / (2 sin θ)`, relative error of `A - Aᵀ`; comparison with the formula of Rodrigues; failures over every mathematical library |
| C124 | Euler angles of an AR filter that follows a motion, in binary32 | rows and columns of the matrix as turned axes; chords of the plane give angles (Jordan's inequality); C104 and C115 |
| C125 | AQUA: attitude distance and Euler angles from tilt and heading | polynomial bounds on the turn between the true and the estimated frame; C124 for the conjugate; C120 for the readings |
| C126 | AM mode of AQUA: Euler angles from noisy samples in binary32 | C89 for one update, the images of the readings turned into tilt and heading, then C125 |
| C127 | AQUA: the adaptive gain in binary32 | the update of a filter and that of its copy with a constant gain run side by side through every call (`Alike`); the deviation computed in binary32 is within a millionth of (N + G)/G; a negative gain is refused by `lerp` and `slerp` |
| C128 | What the tolerance tests decide in binary32 | rounding is monotone and keeps numbers (`Verif/Monotone.lean`); a difference of two numbers at most half of one of them is exact (Sterbenz); numbers from 1024 on are multiples of 2⁻¹³ |
| C129 | The test for positive definite matrices and the success of `chol` in binary32 | the steps of `lup`, `det` and `chol` on a 2×2 matrix with a rounding bound for each; the refusals from C107 applied to the leading blocks |
| C130 | `lr` and `lu_crout` in binary32 | the running sum of `lr` followed through both loops, with one rounding bound per stored element; Crout: the first row of `U` is copied exactly, so the inverted test refuses the first pivot |
| C131 | random attitudes in binary32 | the exact rotation followed through one iteration with linear error bounds (scalar product, `acosf`, weights, interpolation), then four iterations |
| C132 | the simulated sensors in binary32 | forward errors of the difference quotient and of quaternion and matrix products, column invariant of the loop; C131 for the attitudes of the test; evaluation for the lost rate |
| C133 | the test of `open_ahrs` in binary32 | C131 and C132 for the attitudes and the readings; one AR or AQUA update at an attitude near a rotation about the second axis ends near the one the exact update reaches (Lipschitz bounds of the prediction and of the two corrections, C111 for the rounding); invariant of the loops over the samples; the angles of such rotations |
| C134 | the two pivot searches of `det` on 3×3 matrices in binary32; `is_so_n`, `is_orthogonal`, `log`, `adjugate_in_place` on turns about the vertical | forward run of `lup` with the outcome of the comparison; the compared numbers times the pivot are the element and the minor up to 3·10⁻⁷; a row that begins with two zeros stays below 2⁻⁹⁰ |
| C135 | the same for every attitude, by the elements of its rotation matrix; turns about the first and the second axis | the minors of the first two columns of a rotation matrix are the elements of its third column, so C134_det reads off two elements; for pitches the zeros of the matrix are exact (`Grid`) |
| C136 | `lup`, `det`, `invert`, `is_positive_definite` and `chol` on upper triangular and diagonal matrices in binary32 | with exact zeros (0/x, x·0 and x - 0 are exact in `F32`) every elimination step leaves the matrix as it is; the products of the diagonal may overflow, so their sign is followed through infinity and NaN; the unknowns of an upper triangular system with elements up to 256 stay below 2¹²⁰, and those below the diagonal are exact zeros |
| C137 | the AR filter in binary32 on motions that are undone | the exact rotations (and the exact Euler steps) of a nested sequence cancel, so C83, C106 and C114 bound the distance to the first attitude; for the series of order 2 to 20 two steps of C114_step are followed from the identity, where t² ≤ f(t) + f(-t) |
| C138 | `trace`, `calculate_frobenius_norm`, `outer_product` in binary32 | induction over up to 16 summands with an error of 2k units of round-off; the root of a perturbed square with an absolute part; infinities followed through the sum |
| C139 | element-wise operations and products with the identity in binary32 without rounding errors | every number is a multiple of 2⁻¹⁴⁹ and of its own unit in the last place, so that near differences, doubling and sums with zero are numbers again |
| C140 | `update` of the three sensors in binary32 where nothing is rounded | C43 for the formula; sums with zero and products with 0 and 1 are exact (C139) |
| C141 | `AR::update` at rest in binary32 | the corrected rates are exactly 0 (C140), so the norm test of C47 keeps the attitude |

## 5. Where the code disagrees with what its documentation or name suggests

Each item is a theorem (number in parentheses); the remainder that does hold is proved beside it.

Linear algebra
* `lr` is right for sizes 1 and 2 and wrong from size 3 on: a running sum is not reset (C26 gives the exact defect; for size 3 it vanishes only when A(0,1)A(1,0) = 0 and A(0,1)A(2,0) = 0).
* `lu_crout` has an inverted test and rejects regular matrices; with a small pivot and size 3 it can return factors whose product is not the input (C27).
* `det` of a 4×4 matrix has the wrong sign when the pivot order exchanges two disjoint pairs; `det`, `lup`, `invert` report
  `Singular` for some regular matrices, since the pivot is not the largest candidate (C25); C107 says for which, and C108 that they include the rotations about the third axis by all angles outside [0, π/2].  Hence `is_orthogonal` of a quarter turn is an
  error and `is_so_n` rejects a 4×4 rotation (C62).
* `chol` computes the elements above the diagonal too and divides them by EPSILON: in binary32 they are not zero even for symmetric matrices, and one exceeds 11900 for a matrix of elements up to 4 (C100).
  `chol` of a nearly symmetric matrix returns a factor that is not lower triangular (C29).  `is_positive_definite` accepts singular matrices, rejects a
  positive definite 4×4 matrix, and fails with `Singular` for a small corner (C65).
* `qr_decomp` recomputes `R` as `Qᵀ A`, so when the columns are nearly dependent the product of its factors is not the matrix and `R` is not triangular: for rows (4000, 4001) and (3999, 4000) the product is off by 3999; for elements above 2⁶⁴ a column of `Q` can be zero, with success (C101).
* `qr_decomp` leaves the columns after a deficient one unnormalised (C28).
* `eigen` returns zeros with `Ok` when it has not converged, and zeros/identity for `niter = 0`; the shifted variant fails on a 2×2 identity and panics or fails for size 1 (C30).
  The shift is called Wilkinson's and is not: for a symmetric 2×2 matrix it stays near the mean of the eigenvalues (C84).  An orthogonal matrix is reported to have its diagonal as eigenvalues (C85).
* `add_row`/`add_col` fail non-atomically (C17); index 255 panics with overflow checks (C03).  `del_row` and `is_lower_triangular` on an uninitialised or one-row object: see C03, C16.
* `log` fails for the identity and ignores its own rotation test (C74).  `adjugate_in_place` is the adjugate only for orthogonal matrices; `dlyap` returns zeros (C75).
* In binary32 the norm of a finite vector longer than about 2⁶⁴ is `Ok(inf)`, and `normalize` turns it into the zero vector with `Ok` (C77).
* `generate_raw_measurements.py` says that its readings are in the sensor frame, but it turns the fields by the attitude and not by its inverse; its rates are in the sensor frame (C98).
* The absolute tolerance 0.0001 of `is_symmetric` and of comparisons has no effect from 1024 on: a difference of one unit in the last place is refused, so two such matrices computed along different ways are rarely equal (C128).
* `is_positive_definite` and `chol` compare with an absolute threshold and search the pivot with sign: covariances whose first column stays below 0.0001, and 3×3 covariances that couple the first two rows negatively and leave the third alone, are refused (C129).
* `lup` searches the pivot among signed values and against column 0, so in binary32 a well-conditioned 2×2 system is solved with a residual of 1/2100 (C94).
* `eigen` leaves its loop when two successive diagonals are within EPSILON of each other relative to their norm, which slow convergence also meets: the numbers returned can be off by 0.6 % (C97). For size 4 the bound of C97 on the number of iterations, 84854, is above the largest `u16`, so it does not exclude that an allowed number of iterations is too small.

Quaternions
* `hughes(convert_to_dcm(q))` is the conjugate (C39); `chiaverini` clips components beyond 1/√2 and returns zero for half turns (C38); `sarabandi` returns absolute values for thresholds below 3 (C40).
* In binary32 `hughes` misses its half-turn branch by a rounding error and returns a quaternion of length 0.0002 with `Ok`; the error of `chiaverini` is the square root of a rounding error (C103).
* `exp` and `exp_new` differ, and a nearly real quaternion maps to 1 (C41).
* `invert` of a quaternion of norm at most EPSILON reports success (C35), and so in binary32 does that of one of norm above about 2⁶⁴, leaving zeros (C118).
* `convert_to_euler` gives zero roll and yaw at gimbal lock and fails for some non-unit quaternions (C64).  In binary32 a normalised quaternion can have a pitch of NaN, with `Ok` (C104).

Sensors and filters
* A rejected `set_config` is half applied (C42).  Names of the cross-axis factors are inconsistent for the magnetometer (C67).
* `slerp` of a vector normalised by the library with itself can fail, because rounding takes the scalar product beyond 1 (C105).
* AR: a failed `init` can be permanent (C46); `init` does not normalise; Euler applies the rate on the other side (C50), so it does not follow a motion at any sampling rate (C115); two of the advertised methods report an error only when the sensor moves (C50);
  the Taylor series uses element-wise powers (C68), so that shaking with zero mean rate turns the attitude by almost a quarter turn (C113); in binary32 one oversized rate makes the attitude zero with `Ok`, for good (C80); `factorial` overflows from 21 on (C51).
* AQUA: a failed `init` is permanent (C52); the adaptive gain becomes negative between the thresholds, is persisted and locks the filter (C55, in binary32 C127), a zero gain is permanent (C56, C127); the prediction `A + τ/2 A ω` turns the attitude from the sensor to the fixed frame, but the corrections take it as the inverse, so for a body that really turns the gyrometer works against them and the heading is worse than without it (C116);
  the MARG acceleration correction is not normalised (C71); a zero initial quaternion stays zero (C54); in binary32 one oversized rate makes the MARG attitude zero with `Ok`, for good (C90).
* The test of `open_ahrs` has no assertion.  Its gyrometer and its accelerometer disagree about the frame and the sign of the rate (C95); all its attitudes are rotations about `y`,
  so it cannot show on which side a filter applies the rate (C50); each reading is paired with the rate that leads to the next attitude, so AQUA is drawn back to the attitude before the step (C96).
* The test of `open_ahrs` labels every reading as an angular rate, and the columns of the AQUA estimates one too low (C109).
* Davenport: `update` never succeeds, and bad weights make `init` fail for ever (C57).

Others
* `Complex::new` ignores its arguments (C58).  `FFT` has no reachable constructor, so `dftmerge` cannot be called; it changes nothing, wants samples up to the next power of two, and fails for 128 elements or more (C102).
* In binary32 `is_so_n` answers `false` for the matrix of some unit quaternions, because the pivot with the largest signed value may be as small as 10⁻⁴ and spoils the determinant (C122_refused).
* In binary32 the matrix of a turn about the vertical has a determinant, and is a rotation to `is_so_n`, for headings between 0 and 90 degrees only; for the other three quarters everything that needs the determinant fails with `Singular` (C134_heading, C134_angle).
* In binary32 `is_so_n` fails with `Singular` for every roll between 1.2·10⁻⁵ and 9·10⁻⁵ and for every pitch between 90 and 180 degrees (C135_roll, C135_pitch).
* In binary32 `is_positive_definite` answers `true` for diag(1/1000, -2⁻¹⁴⁹): the determinant underflows to 0, which counts as positive (C136_underflow).
* In binary32 too, the Taylor series of order 2 to 20 turns the attitude when a rotation is undone by the opposite one (C137_drift); the other methods come back up to rounding.
* In binary32 the Frobenius norm of a matrix with an element of 2⁶⁵ is infinite, with `Ok` (C138_overflow).
* In binary32 the logarithm of every rotation by less than about 2.4·10⁻⁴ fails with `Nan`, and so does the one of some quaternions of norm within 10⁻⁶ of 1 near the identity (C123_small, C123_quaternion_above).
* In binary32 `Complex::div` by a number with a part of 2⁶⁵ or more stores zero, or not-a-number for 2⁶⁵/2⁶⁵, with success, and `calculate_module` refuses such a number (C121).
* The prototype in `temp/dsp`: a failed `add`, `sub` or `swap` is half written; sums and products that overflow are stored with `Ok`; `expo` ignores an invalid imaginary part (C91).
* `generate_random_attitudes` is constant unless a draw is `u64::MAX` (C61).
* `minf`/`maxf` return the second argument on NaN, `sign(NaN)` is 0, `clip` with reversed bounds does not confine (C60).

## 6. Wrong programs

`seeded/LOG.jsonl` has one line per experiment: the definition of the model that was edited, the edit, the claims that break,
the theorems whose proofs fail, and the theorems that were tightened because of it.  The edits are generated from a list of realistic
faults (wrong operator, wrong comparison, wrong index or bound, dropped statement, wrong error, inverted test, swapped rows and columns) over all
definitions of the model, plus edits chosen by hand.  `theorems_failed` lists the theorems in which Lean reports an error; `claims_lost` lists the claimed theorems
that depend on one of them.  Edits that no theorem notices are kept in the log with the reason: they cannot be observed
through the public interface, or they led to a tightened or new theorem.

## 7. Theorems and axioms

P = `propext`, C = `Classical.choice`, Q = `Quot.sound`.  No theorem depends on any other axiom.

| Claim | Module | Theorem | Axioms |
|---|---|---|---|
| C01 | `Reachable` | `C01_vec` | P C Q |
| C01 | `Reachable` | `C01_u8` | P C Q |
| C01 | `Reachable` | `C01_mat` | P C Q |
| C02 | `Reachable` | `C02_vec` | P C Q |
| C02 | `Reachable` | `C02_mat` | P C Q |
| C03 | `Reachable` | `C03_vec` | P C Q |
| C03 | `Reachable` | `C03_u8` | P C Q |
| C03 | `Reachable` | `C03_mat` | P C Q |
| C03 | `Reachable` | `C03_read` | P C Q |
| C04 | `Elements` | `C04_vec` | P C Q |
| C04 | `Elements` | `C04_mat` | P C Q |
| C05 | `Elements` | `C05_result` | P C Q |
| C05 | `Elements` | `C05_ok_iff` | P C Q |
| C05 | `Elements` | `C05_round_trip` | P C Q |
| C05 | `Elements` | `C05_fail` | P C Q |
| C05 | `Elements` | `C05_u8` | P C Q |
| C06 | `Elements` | `C06_result` | P C Q |
| C06 | `Elements` | `C06_ok_iff` | P C Q |
| C06 | `Elements` | `C06_round_trip` | P C Q |
| C06 | `Elements` | `C06_fail` | P C Q |
| C07 | `Elements` | `C07_vec` | P C Q |
| C07 | `Elements` | `C07_mat` | P C Q |
| C07 | `Elements` | `C07_layout` | P C Q |
| C07 | `Elements` | `C07_access` | P Q |
| C07 | `Elements` | `C07_access_vec` | P Q |
| C08 | `ElementPlain` | `C08_add` | P C Q |
| C08 | `ElementPlain` | `C08_sub` | P C Q |
| C08 | `ElementWise` | `C08_vec` | P C Q |
| C08 | `ElementWise` | `C08_new` | P C Q |
| C08 | `ElementWise` | `C08_agree` | P C Q |
| C08 | `ElementWise` | `C08_agree_new` | P C Q |
| C08 | `ElementWise` | `C08_size` | P Q |
| C09 | `ElementPlain` | `C09_add` | P C Q |
| C09 | `ElementPlain` | `C09_sub` | P C Q |
| C09 | `ElementWise` | `C09_mat` | P C Q |
| C09 | `ElementWise` | `C09_new` | P C Q |
| C09 | `ElementWise` | `C09_agree` | P C Q |
| C09 | `ElementWise` | `C09_agree_new` | P C Q |
| C09 | `ElementWise` | `C09_size` | P Q |
| C10 | `ElementPlain` | `C10_add_scalar_vec` | P C Q |
| C10 | `ElementPlain` | `C10_sub_scalar_vec` | P C Q |
| C10 | `ElementPlain` | `C10_mul_by_scalar_vec` | P C Q |
| C10 | `ElementPlain` | `C10_add_scalar_mat` | P C Q |
| C10 | `ElementPlain` | `C10_sub_scalar_mat` | P C Q |
| C10 | `ElementPlain` | `C10_mul_by_scalar_mat` | P C Q |
| C10 | `ElementPlain` | `C10_power` | P C Q |
| C10 | `ElementWise` | `C10_fresh_vec` | P Q |
| C10 | `ElementWise` | `C10_fresh_mat` | P Q |
| C11 | `ElementWise` | `C11_vec` | P C Q |
| C11 | `ElementWise` | `C11_mat` | P C Q |
| C11 | `ElementWise` | `C11_new` | P C Q |
| C11 | `ElementWise` | `C11_new_mat` | P C Q |
| C12 | `ElementPlain` | `C12_fail_state` | P C Q |
| C12 | `MatrixOps` | `C12_mul` | P C Q |
| C12 | `MatrixOps` | `C12_fail` | P C Q |
| C12 | `MatrixOps` | `C12_size` | P C Q |
| C12 | `MatrixOps` | `C12_new` | P C Q |
| C12 | `MatrixOps` | `C12_new_size` | P C Q |
| C12 | `MatrixOps` | `C12_exact` | P C Q |
| C13 | `MatrixOps` | `C13_transpose` | P C Q |
| C13 | `MatrixOps` | `C13_reach` | P C Q |
| C13 | `MatrixOps` | `C13_uninit` | P Q |
| C14 | `MatrixOps` | `C14_set_row` | P C Q |
| C14 | `MatrixOps` | `C14_set_col` | P C Q |
| C14 | `MatrixOps` | `C14_get_row` | P C Q |
| C14 | `MatrixOps` | `C14_get_col` | P C Q |
| C14 | `MatrixOps` | `C14_round_trip` | P C Q |
| C14 | `MatrixOps` | `C14_round_trip_col` | P C Q |
| C15 | `MatrixOps` | `C15_add_row` | P C Q |
| C15 | `MatrixOps` | `C15_add_col` | P C Q |
| C16 | `MatrixOps` | `C16_del_row` | P C Q |
| C16 | `MatrixOps` | `C16_inverse` | P C Q |
| C16 | `MatrixOps` | `C16_fail` | P C Q |
| C17 | `ElementPlain` | `C17_row_contents` | P C Q |
| C17 | `ElementPlain` | `C17_col_contents` | P C Q |
| C17 | `MatrixOps` | `C17_add_row` | P C Q |
| C17 | `MatrixOps` | `C17_add_col` | P C Q |
| C17 | `MatrixOps` | `C17_full` | P Q |
| C18 | `MatrixOps` | `C18_diag` | P C Q |
| C18 | `MatrixOps` | `C18_default` | P Q |
| C19 | `Predicates` | `C19_vec` | P C Q |
| C19 | `Predicates` | `C19_mat` | P C Q |
| C19 | `Predicates` | `C19_symmetric` | P C Q |
| C19 | `Predicates` | `C19_uninit` | P Q |
| C20 | `Predicates` | `C20_upper` | P C Q |
| C20 | `Predicates` | `C20_upper_tall` | P C Q |
| C20 | `Predicates` | `C20_lower` | P C Q |
| C20 | `Predicates` | `C20_square` | P C Q |
| C20 | `Predicates` | `C20_lower_wide` | P C Q |
| C21 | `DetNaive` | `C21_expansion` | P C Q |
| C21 | `DetNaive` | `C21_det` | P C Q |
| C21 | `DetNaive` | `C21_fail` | P Q |
| C21 | `DetNaive` | `C21_permutations` | P C Q |
| C22 | `Lup` | `C22_lup` | P C Q |
| C22 | `Lup` | `C22_not_square` | P C Q |
| C23 | `Lup` | `C23_outcome` | P C Q |
| C23 | `Lup` | `C23_solve` | P C Q |
| C23 | `Lup` | `C23_singular` | P C Q |
| C24 | `Lup` | `C24_invert` | P C Q |
| C24 | `Lup` | `C24_fail` | P C Q |
| C25 | `Lup` | `C25_det` | P C Q |
| C25 | `Lup` | `C25_det_small` | P C Q |
| C25 | `Lup` | `C25_det_abs` | P C Q |
| C25 | `Lup` | `C25_singular_on_regular` | P C Q |
| C25 | `Lup` | `C25_wrong_sign` | P C Q |
| C26 | `Factor` | `C26_lr` | P C Q |
| C26 | `Factor` | `C26_lr_zero` | P C Q |
| C26 | `Factor` | `C26_not_square` | P C Q |
| C26 | `Factor` | `C26_wrong_from_3` | P C Q |
| C26 | `LrDefect` | `C26_all_sizes` | P C Q |
| C26 | `LrDefect` | `C26_returns` | P C Q |
| C26 | `LrDefect` | `C26_upper` | P C Q |
| C26 | `LrDefect` | `C26_three` | P C Q |
| C26 | `LrDefect` | `C26_where_right` | P C Q |
| C27 | `CroutDefect` | `C27_all_sizes` | P C Q |
| C27 | `CroutDefect` | `C27_returns` | P C Q |
| C27 | `CroutSmall` | `C27_one` | P C Q |
| C27 | `CroutSmall` | `C27_zero` | P C Q |
| C27 | `CroutSmall` | `C27_two` | P C Q |
| C27 | `CroutSmall` | `C27_wrong_from_3` | P C Q |
| C27 | `Factor` | `C27_rejects` | P C Q |
| C27 | `Factor` | `C27_not_square` | P C Q |
| C28 | `Qr` | `C28_qr` | P C Q |
| C28 | `Qr` | `C28_total` | P C Q |
| C28 | `Qr` | `C28_deficient_wrong` | P C Q |
| C28 | `Qr` | `C28_not_square` | P C Q |
| C29 | `Chol` | `C29_chol` | P C Q |
| C29 | `Chol` | `C29_success` | P C Q |
| C29 | `Chol` | `C29_refused` | P C Q |
| C29 | `Chol` | `C29_not_lower` | P C Q |
| C30 | `Eigen` | `C30_no_iteration` | P C Q |
| C30 | `Eigen` | `C30_not_converged` | P C Q |
| C30 | `Eigen` | `C30_not_square` | P C Q |
| C30 | `Eigen` | `C30_shifted_one` | P C Q |
| C30 | `Eigen` | `C30_eigen` | P C Q |
| C30 | `Eigen` | `C30_trace` | P C Q |
| C30 | `Eigen` | `C30_example` | P C Q |
| C30 | `Eigen` | `C30_singular_wrong` | P C Q |
| C30 | `Eigen` | `C30_shifted_identity` | P C Q |
| C31 | `Norms` | `C31_norm` | P C Q |
| C31 | `Norms` | `C31_normalize` | P C Q |
| C31 | `Norms` | `C31_normalize_small` | P C Q |
| C32 | `Norms` | `C32_alpha` | P Q |
| C32 | `Norms` | `C32_lerp` | P C Q |
| C32 | `Norms` | `C32_lerp_ends` | P C Q |
| C32 | `Norms` | `C32_slerp` | P C Q |
| C32 | `Norms` | `C32_slerp_ends` | P C Q |
| C32 | `Norms` | `C32_slerp_parallel` | P C Q |
| C32 | `SlerpArc` | `C32_speed` | P C Q |
| C33 | `MatrixOps` | `C33_dot` | P Q |
| C33 | `MatrixOps` | `C33_outer` | P C Q |
| C33 | `MatrixOps` | `C33_trace` | P Q |
| C33 | `MatrixOps` | `C33_frobenius` | P Q |
| C33 | `MatrixOps` | `C33_to_matrix` | P C Q |
| C33 | `MatrixOps` | `C33_exact` | P C Q |
| C34 | `QuatAlgebra` | `C34_agree` | P C Q |
| C34 | `QuatAlgebra` | `C34_refused` | P Q |
| C34 | `QuatAlgebra` | `C34_hamilton` | P C Q |
| C34 | `QuatAlgebra` | `C34_assoc` | P C Q |
| C34 | `QuatAlgebra` | `C34_norm` | P C Q |
| C35 | `QuatAlgebra` | `C35_negates` | P C Q |
| C35 | `QuatAlgebra` | `C35_conjugate` | P C Q |
| C35 | `QuatAlgebra` | `C35_involution` | P C Q |
| C35 | `QuatAlgebra` | `C35_product` | P C Q |
| C35 | `QuatAlgebra` | `C35_invert` | P C Q |
| C35 | `QuatAlgebra` | `C35_inverse` | P C Q |
| C35 | `QuatAlgebra` | `C35_invert_small` | P C Q |
| C36 | `Rotation` | `C36_dcm` | P C Q |
| C36 | `Rotation` | `C36_product` | P C Q |
| C36 | `Rotation` | `C36_opposite` | P C Q |
| C36 | `Rotation` | `C36_faithful` | P C Q |
| C36 | `Rotation` | `C36_not_unit` | P C Q |
| C37 | `Rotation` | `C37_agree` | P C Q |
| C37 | `Rotation` | `C37_rotate` | P C Q |
| C37 | `Rotation` | `C37_norm` | P C Q |
| C37 | `Rotation` | `C37_compose` | P C Q |
| C38 | `Extract` | `C38_chiaverini` | P C Q |
| C38 | `Extract` | `C38_half_turn` | P C Q |
| C38 | `Extract` | `C38_wrong` | P C Q |
| C39 | `Extract` | `C39_hughes` | P C Q |
| C39 | `Extract` | `C39_small_angle` | P C Q |
| C39 | `QuatFuncs` | `C39_half_turn` | P C Q |
| C40 | `Extract` | `C40_sarabandi` | P C Q |
| C40 | `Extract` | `C40_wrong` | P C Q |
| C41 | `QuatFuncs` | `C41_real` | P C Q |
| C41 | `QuatFuncs` | `C41_exp_new` | P C Q |
| C41 | `QuatFuncs` | `C41_exp` | P C Q |
| C41 | `QuatFuncs` | `C41_pure` | P C Q |
| C41 | `QuatFuncs` | `C41_differ` | P C Q |
| C42 | `Accelerometer` | `C42_acc_iff` | P C Q |
| C42 | `Accelerometer` | `C42_acc_round_trip` | P C Q |
| C42 | `Accelerometer` | `C42_acc_init` | P C Q |
| C42 | `Accelerometer` | `C42_acc_half_applied` | P C Q |
| C42 | `Gyrometer` | `C42_gyr_iff` | P C Q |
| C42 | `Gyrometer` | `C42_gyr_round_trip` | P C Q |
| C42 | `Gyrometer` | `C42_gyr_init` | P C Q |
| C42 | `Gyrometer` | `C42_gyr_half_applied` | P C Q |
| C42 | `Magnetometer` | `C42_mag_iff` | P C Q |
| C42 | `Magnetometer` | `C42_mag_round_trip` | P C Q |
| C42 | `Magnetometer` | `C42_mag_init` | P C Q |
| C42 | `Magnetometer` | `C42_mag_half_applied` | P C Q |
| C43 | `Accelerometer` | `C43_acc_formula` | P C Q |
| C43 | `Accelerometer` | `C43_acc_iff` | P C Q |
| C43 | `Accelerometer` | `C43_acc_exact` | P C Q |
| C43 | `Accelerometer` | `C43_acc_default` | P C Q |
| C43 | `Gyrometer` | `C43_gyr_formula` | P C Q |
| C43 | `Gyrometer` | `C43_gyr_iff` | P C Q |
| C43 | `Gyrometer` | `C43_gyr_exact` | P C Q |
| C43 | `Gyrometer` | `C43_gyr_default` | P C Q |
| C43 | `Magnetometer` | `C43_mag_formula` | P C Q |
| C43 | `Magnetometer` | `C43_mag_iff` | P C Q |
| C43 | `Magnetometer` | `C43_mag_exact` | P C Q |
| C43 | `Magnetometer` | `C43_mag_default` | P C Q |
| C44 | `Accelerometer` | `C44_acc_unused` | P C Q |
| C44 | `Accelerometer` | `C44_acc_new` | P C Q |
| C44 | `Accelerometer` | `C44_acc_init` | P C Q |
| C44 | `Accelerometer` | `C44_acc_once` | P C Q |
| C44 | `Accelerometer` | `C44_acc_retry` | P C Q |
| C44 | `Gyrometer` | `C44_gyr_unused` | P C Q |
| C44 | `Gyrometer` | `C44_gyr_new` | P C Q |
| C44 | `Gyrometer` | `C44_gyr_init` | P C Q |
| C44 | `Gyrometer` | `C44_gyr_once` | P C Q |
| C44 | `Gyrometer` | `C44_gyr_retry` | P C Q |
| C44 | `Magnetometer` | `C44_mag_unused` | P C Q |
| C44 | `Magnetometer` | `C44_mag_new` | P C Q |
| C44 | `Magnetometer` | `C44_mag_init` | P C Q |
| C44 | `Magnetometer` | `C44_mag_once` | P C Q |
| C44 | `Magnetometer` | `C44_mag_retry` | P C Q |
| C45 | `Accelerometer` | `C45_acc_rejected` | P C Q |
| C45 | `Accelerometer` | `C45_acc_kept` | P C Q |
| C45 | `Accelerometer` | `C45_acc_overflow` | P C Q |
| C45 | `Accelerometer` | `C45_acc_config` | P C Q |
| C45 | `Gyrometer` | `C45_gyr_rejected` | P C Q |
| C45 | `Gyrometer` | `C45_gyr_kept` | P C Q |
| C45 | `Gyrometer` | `C45_gyr_overflow` | P C Q |
| C45 | `Gyrometer` | `C45_gyr_config` | P C Q |
| C45 | `Magnetometer` | `C45_mag_rejected` | P C Q |
| C45 | `Magnetometer` | `C45_mag_kept` | P C Q |
| C45 | `Magnetometer` | `C45_mag_overflow` | P C Q |
| C45 | `Magnetometer` | `C45_mag_config` | P C Q |
| C45 | `SensorDiff` | `C45_gyr_difference` | P C Q |
| C45 | `SensorDiff` | `C45_acc_difference` | P C Q |
| C45 | `SensorDiff` | `C45_mag_difference` | P C Q |
| C46 | `Ar` | `C46_iff` | P C Q |
| C46 | `Ar` | `C46_attitude` | P C Q |
| C46 | `Ar` | `C46_permanent` | P C Q |
| C46 | `Ar` | `C46_refused` | P C Q |
| C46 | `Ar` | `C46_retry` | P C Q |
| C46 | `Ar` | `C46_once` | P C Q |
| C47 | `Ar` | `C47_still` | P C Q |
| C47 | `Ar` | `C47_rejected` | P C Q |
| C48 | `ArExact` | `C48_step` | P C Q |
| C48 | `ArExact` | `C48_unit` | P C Q |
| C48 | `ArExact` | `C48_any` | P C Q |
| C49 | `ArExact` | `C49_closed` | P C Q |
| C49 | `ArExact` | `C49_ode` | P C Q |
| C49 | `ArExact` | `C49_steps` | P C Q |
| C49 | `ArExact` | `C49_halves` | P C Q |
| C50 | `Ar` | `C50_unimplemented` | P C Q |
| C50 | `ArExact` | `C50_euler` | P C Q |
| C50 | `ArExact` | `C50_taylor` | P C Q |
| C50 | `ArExact` | `C50_same_iff` | P C Q |
| C51 | `ArExact` | `C51_factorial` | P Q |
| C51 | `ArExact` | `C51_overflow` | P Q |
| C51 | `ArExact` | `C51_wraps` | P |
| C51 | `ArExact` | `C51_vanishes` | P |
| C51 | `ArExact` | `C51_panics` | P C Q |
| C51 | `ArExact` | `C51_taylor` | P C Q |
| C52 | `Aqua` | `C52_iff` | P C Q |
| C52 | `Aqua` | `C52_attitude` | P C Q |
| C52 | `Aqua` | `C52_permanent` | P C Q |
| C52 | `Aqua` | `C52_once` | P C Q |
| C53 | `Aqua` | `C53_missing` | P C Q |
| C53 | `Aqua` | `C53_incomplete` | P C Q |
| C53 | `Aqua` | `C53_am` | P C Q |
| C54 | `AquaExact` | `C54_am` | P C Q |
| C54 | `AquaMarg` | `C54_marg` | P C Q |
| C54 | `AquaMarg` | `C54_unit` | P C Q |
| C54 | `AquaMarg` | `C54_zero` | P C Q |
| C55 | `AquaMarg` | `C55_gain` | P C Q |
| C55 | `AquaMarg` | `C55_stuck` | P C Q |
| C56 | `AquaMarg` | `C56_off` | P C Q |
| C57 | `Davenport` | `C57_init` | P C Q |
| C57 | `Davenport` | `C57_started` | P C Q |
| C57 | `Davenport` | `C57_before` | P C Q |
| C57 | `Davenport` | `C57_never` | P C Q |
| C57 | `Davenport` | `C57_permanent` | P C Q |
| C58 | `Dsp` | `Dsp.Complex.C58_new` | P Q |
| C58 | `Dsp` | `Dsp.Complex.C58_set` | P |
| C58 | `Dsp` | `Dsp.Complex.C58_swap` | none |
| C58 | `Dsp` | `Dsp.Complex.C58_ring` | P C Q |
| C58 | `Dsp` | `Dsp.Complex.C58_neg` | P C Q |
| C58 | `Dsp` | `Dsp.Complex.C58_div` | P C Q |
| C58 | `Dsp` | `Dsp.Complex.C58_module` | P C Q |
| C58 | `Dsp` | `Dsp.Complex.C58_expo` | P C Q |
| C58 | `Dsp` | `Dsp.Complex.C58_polar` | P C Q |
| C58 | `Dsp` | `Dsp.Complex.C58_polar_refuses` | P |
| C58 | `RoundedComplex` | `C58_get` | P |
| C59 | `Dsp` | `Dsp.C59_bitrev` | P C Q |
| C59 | `Dsp` | `Dsp.C59_involution` | P C Q |
| C59 | `Dsp` | `Dsp.C59_injective` | P C Q |
| C60 | `Utils` | `Utils.C60_clip` | P |
| C60 | `Utils` | `Utils.C60_clip_nan` | P |
| C60 | `Utils` | `Utils.C60_clip_mono` | P |
| C60 | `Utils` | `Utils.C60_clip_reversed` | P |
| C60 | `Utils` | `Utils.C60_in_range` | P |
| C60 | `Utils` | `Utils.C60_clip_in_range` | P |
| C60 | `Utils` | `Utils.C60_min_max` | none |
| C60 | `Utils` | `Utils.C60_min_max_nan` | P |
| C60 | `Utils` | `Utils.C60_sign` | P Q |
| C60 | `Utils` | `Utils.C60_allclose` | P Q |
| C60 | `Utils` | `Utils.C60_allclose_exact` | P C Q |
| C60 | `Utils` | `Utils.C60_int` | P C Q |
| C60 | `Utils` | `Utils.C60_sign_int` | P C Q |
| C61 | `Random` | `Ahrs.C61_source` | P C Q |
| C61 | `Random` | `Ahrs.C61_number` | P C Q |
| C61 | `Random` | `Ahrs.C61_unit` | P C Q |
| C61 | `Random` | `Ahrs.C61_values` | P C Q |
| C62 | `Orthogonal` | `C62_orthogonal` | P C Q |
| C62 | `Orthogonal` | `C62_so_n` | P C Q |
| C62 | `Orthogonal` | `C62_so_n_any` | P C Q |
| C62 | `Orthogonal` | `C62_not_square` | P C Q |
| C62 | `Orthogonal` | `C62_quarter_turn` | P C Q |
| C62 | `Orthogonal` | `C62_rejects_rotation` | P C Q |
| C63 | `ElementWise` | `C63_duplicate_vec` | P C Q |
| C63 | `ElementWise` | `C63_duplicate_mat` | P C Q |
| C63 | `ElementWise` | `C63_copy_vec` | P C Q |
| C63 | `ElementWise` | `C63_copy_mat` | P C Q |
| C64 | `Euler` | `C64_euler` | P C Q |
| C64 | `Euler` | `C64_gimbal` | P C Q |
| C64 | `Euler` | `C64_nan` | P C Q |
| C65 | `Chol` | `C65_small` | P C Q |
| C65 | `Chol` | `C65_asymmetric` | P C Q |
| C65 | `Chol` | `C65_rejects` | P C Q |
| C65 | `Chol` | `C65_accepts_semidefinite` | P C Q |
| C65 | `Chol` | `C65_small_corner` | P C Q |
| C65 | `LupWhen` | `C65_two` | P C Q |
| C65 | `LupWhen` | `C65_one` | P C Q |
| C66 | `Accelerometer` | `C66_acc_no_panic` | P C Q |
| C66 | `Accelerometer` | `C66_acc_finite` | P C Q |
| C66 | `Gyrometer` | `C66_gyr_no_panic` | P C Q |
| C66 | `Gyrometer` | `C66_gyr_finite` | P C Q |
| C66 | `Magnetometer` | `C66_mag_no_panic` | P C Q |
| C66 | `Magnetometer` | `C66_mag_finite` | P C Q |
| C67 | `SensorNames` | `C67_gyr_target` | P C Q |
| C67 | `SensorNames` | `C67_acc_target` | P C Q |
| C67 | `SensorNames` | `C67_mag_false` | P C Q |
| C67 | `SensorNames` | `C67_mag_target` | P C Q |
| C68 | `ArExact` | `C68_second` | P C Q |
| C68 | `ArExact` | `C68_stuck` | P C Q |
| C68 | `ArExact` | `C68_reverse` | P C Q |
| C69 | `AquaExact` | `C69_align` | P C Q |
| C69 | `AquaExact` | `C69_refused` | P C Q |
| C69 | `AquaExact` | `C69_unique` | P C Q |
| C70 | `AquaStep` | `C70_step` | P C Q |
| C70 | `AquaStep` | `C70_gyro` | P C Q |
| C70 | `AquaStep` | `C70_fixed` | P C Q |
| C70 | `AquaStep` | `C70_heading` | P C Q |
| C71 | `AquaStep` | `C71_formula` | P C Q |
| C71 | `AquaStep` | `C71_iff` | P C Q |
| C72 | `QuatAccess` | `Quat.C72_get` | P C Q |
| C72 | `QuatAccess` | `Quat.C72_set` | P C Q |
| C72 | `QuatAccess` | `Quat.C72_refuse` | P Q |
| C72 | `QuatAccess` | `Quat.C72_fill` | P C Q |
| C72 | `QuatAccess` | `Quat.C72_vector_part` | P C Q |
| C72 | `QuatAccess` | `Quat.C72_size` | P C Q |
| C72 | `QuatAccess` | `Quat.C72_uninit` | P C Q |
| C73 | `QuatAccess` | `Quat.C73_predicates` | P C Q |
| C74 | `LupRot` | `C74_identity_any` | P C Q |
| C74 | `MatrixLog` | `C74_log` | P C Q |
| C74 | `MatrixLog` | `C74_fail` | P C Q |
| C74 | `MatrixLog` | `C74_rodrigues` | P C Q |
| C74 | `MatrixLog` | `C74_identity` | P C Q |
| C75 | `MatrixLog` | `C75_adjugate` | P C Q |
| C75 | `MatrixLog` | `C75_adjugate_orthogonal` | P C Q |
| C75 | `MatrixLog` | `C75_adjugate_wrong` | P C Q |
| C75 | `MatrixLog` | `C75_dlyap` | P C Q |
| C75 | `MatrixLog` | `C75_dlyap_wrong` | P C Q |
| C76 | `Rounding` | `C76_dot` | P C Q |
| C76 | `Rounding` | `C76_mul` | P C Q |
| C77 | `Rounding` | `C77_norm` | P C Q |
| C77 | `Rounding` | `C77_overflow` | P C Q |
| C77 | `Rounding` | `C77_normalize` | P C Q |
| C78 | `Rounding` | `C78_versor` | P C Q |
| C78 | `Rounding` | `C78_normalize` | P C Q |
| C79 | `RoundedQuat` | `C79_mul` | P C Q |
| C80 | `RoundedAr` | `C80_update` | P C Q |
| C80 | `RoundedAr` | `C80_history` | P C Q |
| C80 | `RoundedAr` | `C80_lost` | P C Q |
| C81 | `RoundedSensors` | `C81_gyr` | P C Q |
| C81 | `RoundedSensors` | `C81_acc` | P C Q |
| C81 | `RoundedSensors` | `C81_mag` | P C Q |
| C82 | `RoundedClosed` | `C82_step` | P C Q |
| C83 | `RoundedTrack` | `C83_track` | P C Q |
| C84 | `EigenShift` | `C84_shifted` | P C Q |
| C84 | `EigenShift` | `C84_two` | P C Q |
| C85 | `EigenShift` | `C85_orthogonal` | P C Q |
| C85 | `EigenShift` | `C85_wrong` | P C Q |
| C86 | `Uninit` | `C86_vec_reads` | P Q |
| C86 | `Uninit` | `C86_vec_writes` | P Q |
| C86 | `Uninit` | `C86_vec_operand` | P Q |
| C86 | `Uninit` | `C86_vec_loops` | P C Q |
| C86 | `Uninit` | `C86_quat` | P C Q |
| C86 | `Uninit` | `C86_mat_reads` | P C Q |
| C86 | `Uninit` | `C86_mat_factors` | P C Q |
| C86 | `Uninit` | `C86_mat_writes` | P C Q |
| C86 | `Uninit` | `C86_mat_operand` | P Q |
| C86 | `Uninit` | `C86_mat_loops` | P C Q |
| C86 | `Uninit` | `C86_new` | P C Q |
| C86 | `UninitRest` | `C86_quat_rest` | P C Q |
| C86 | `UninitRest` | `C86_quat_operand` | P C Q |
| C86 | `UninitRest` | `C86_quat_copies` | P C Q |
| C86 | `UninitRest` | `C86_mat_stale` | P C Q |
| C86 | `UninitRest` | `C86_mat_views` | P Q |
| C86 | `UninitRest` | `C86_mat_mul` | P Q |
| C86 | `UninitRest` | `C86_mat_insert` | P C Q |
| C86 | `UninitRest` | `C86_mat_fresh` | P C Q |
| C87 | `Shapes` | `C87_vec` | P Q |
| C87 | `Shapes` | `C87_vec_three` | P Q |
| C87 | `Shapes` | `C87_quat` | P C Q |
| C87 | `Shapes` | `C87_quat_operand` | P Q |
| C87 | `Shapes` | `C87_mat` | P Q |
| C87 | `Shapes` | `C87_mat_three` | P Q |
| C87 | `Shapes` | `C87_mul` | P C Q |
| C87 | `Shapes` | `C87_square` | P C Q |
| C87 | `Shapes` | `C87_views` | P Q |
| C88 | `RoundedDcm` | `C88_dcm` | P C Q |
| C88 | `RoundedDcm` | `C88_rotate` | P C Q |
| C89 | `RoundedAmStep` | `C89_align` | P C Q |
| C90 | `RoundedAqua` | `C90_update` | P C Q |
| C90 | `RoundedAqua` | `C90_lost` | P C Q |
| C90 | `RoundedAqua` | `C90_overflow` | P C Q |
| C91 | `TempDsp` | `TempDsp.Complex.C91_new` | P |
| C91 | `TempDsp` | `TempDsp.Complex.C91_access` | P |
| C91 | `TempDsp` | `TempDsp.Complex.C91_polar` | P |
| C91 | `TempDsp` | `TempDsp.Complex.C91_copy` | P C Q |
| C91 | `TempDsp` | `TempDsp.Complex.C91_add` | P |
| C91 | `TempDsp` | `TempDsp.Complex.C91_sub` | P |
| C91 | `TempDsp` | `TempDsp.Complex.C91_in_place` | P |
| C91 | `TempDsp` | `TempDsp.Complex.C91_mul` | P |
| C91 | `TempDsp` | `TempDsp.Complex.C91_atomic` | P C Q |
| C91 | `TempDsp` | `TempDsp.Complex.C91_swap` | P Q |
| C91 | `TempDsp` | `TempDsp.Complex.C91_expo_unchecked` | P C Q |
| C91 | `TempDsp` | `TempDsp.Complex.C91_ring` | P C Q |
| C91 | `TempDsp` | `TempDsp.Complex.C91_neg` | P C Q |
| C91 | `TempDsp` | `TempDsp.Complex.C91_div` | P C Q |
| C91 | `TempDsp` | `TempDsp.Complex.C91_module` | P C Q |
| C91 | `TempDsp` | `TempDsp.Complex.C91_exp` | P C Q |
| C92 | `TempDft` | `TempDsp.C92_finite` | P C Q |
| C92 | `TempDft` | `TempDsp.C92_exact` | P C Q |
| C92 | `TempDft` | `TempDsp.C92_dft` | P C Q |
| C92 | `TempDft` | `TempDsp.C92_twice` | P C Q |
| C93 | `TempDftRounded` | `TempDsp.C93_dft` | P C Q |
| C93 | `TempDftRounded` | `TempDsp.C93_main` | P C Q |
| C94 | `RoundedLup` | `C94_lup` | P C Q |
| C94 | `RoundedLup` | `C94_subst` | P C Q |
| C94 | `RoundedLup` | `C94_solve` | P C Q |
| C94 | `RoundedLup` | `C94_invert` | P C Q |
| C94 | `RoundedLup` | `C94_unstable` | P C Q |
| C95 | `AhrsTest` | `AhrsTest.C95_sensors` | P C Q |
| C95 | `AhrsTest` | `AhrsTest.C95_methods` | P C Q |
| C95 | `AhrsTest` | `AhrsTest.C95_frames` | P C Q |
| C96 | `AhrsTestRun` | `AhrsTest.C96_test` | P C Q |
| C96 | `AhrsTestRun` | `AhrsTest.C96_lag` | P C Q |
| C97 | `EigenConv` | `C97_eigen` | P C Q |
| C97 | `EigenConv` | `C97_converges` | P C Q |
| C97 | `EigenConv` | `C97_inexact` | P C Q |
| C98 | `Measurements` | `Generator.C98_fields` | P C Q |
| C98 | `Measurements` | `Generator.C98_rate` | P C Q |
| C98 | `Measurements` | `Generator.C98_frame` | P C Q |
| C98 | `Measurements` | `Generator.C98_file` | P C Q |
| C99 | `RoundedDet` | `C99_naive` | P C Q |
| C99 | `RoundedDet` | `C99_det` | P C Q |
| C100 | `RoundedChol` | `C100_lower` | P C Q |
| C100 | `RoundedChol` | `C100_stable` | P C Q |
| C100 | `RoundedChol` | `C100_not_triangular` | P C Q |
| C100 | `RoundedChol` | `C100_upper` | P C Q |
| C101 | `RoundedQr` | `C101_qr` | P C Q |
| C101 | `RoundedQr` | `C101_angle` | P C Q |
| C101 | `RoundedQr` | `C101_loss` | P C Q |
| C101 | `RoundedQr` | `C101_dependent` | P C Q |
| C101 | `RoundedQr` | `C101_overflow` | P C Q |
| C102 | `DftMerge` | `Dsp.C102_dftmerge` | P C Q |
| C103 | `RoundedExtractCases` | `C103_half_turn` | P C Q |
| C103 | `RoundedExtractCases` | `C103_square_root` | P C Q |
| C103 | `RoundedHughes` | `C103_hughes` | P C Q |
| C103 | `RoundedHughes` | `C103_small_angle` | P C Q |
| C103 | `RoundedHughes` | `C103_chiaverini` | P C Q |
| C103 | `RoundedSarabandi` | `C103_sarabandi` | P C Q |
| C104 | `RoundedEuler` | `C104_euler` | P C Q |
| C104 | `RoundedEuler` | `C104_nan` | P C Q |
| C104 | `RoundedEulerCases` | `C104_quarter_turn` | P C Q |
| C105 | `RoundedInterp` | `C105_lerp` | P C Q |
| C105 | `RoundedInterp` | `C105_slerp` | P C Q |
| C105 | `RoundedInterp` | `C105_slerp_same` | P C Q |
| C106 | `RoundedArEuler` | `C106_step` | P C Q |
| C106 | `RoundedArEuler` | `C106_track` | P C Q |
| C106 | `RoundedArEuler` | `C106_lag` | P C Q |
| C107 | `LupRefused` | `C107_first32` | P C Q |
| C107 | `LupRefused` | `C107_block32` | P C Q |
| C107 | `LupWhen` | `C107_first` | P C Q |
| C107 | `LupWhen` | `C107_one` | P C Q |
| C107 | `LupWhen` | `C107_two` | P C Q |
| C107 | `LupWhen` | `C107_three` | P C Q |
| C107 | `LupWhen` | `C107_block` | P C Q |
| C107 | `LupWhen` | `C107_upper` | P C Q |
| C107 | `LupWhen` | `C107_covariance` | P C Q |
| C108 | `LupRot` | `C108_plane` | P C Q |
| C108 | `LupRot` | `C108_yaw` | P C Q |
| C108 | `LupRot` | `C108_pitch` | P C Q |
| C108 | `LupRot` | `C108_roll` | P C Q |
| C108 | `LupRot` | `C108_log_yaw` | P C Q |
| C109 | `Print` | `C109_vec` | P C Q |
| C109 | `Print` | `C109_mat` | P C Q |
| C109 | `Print` | `C109_uninit` | P C Q |
| C109 | `Print` | `C109_attitude` | P C Q |
| C109 | `Print` | `C109_read_vec` | P C Q |
| C109 | `Print` | `C109_read_mat` | P C Q |
| C109 | `Print` | `TempDsp.C109_main` | P C Q |
| C109 | `Print` | `AhrsTest.C109_report` | P C Q |
| C110 | `AquaSettle` | `C110_tilt` | P C Q |
| C110 | `AquaSettle` | `C110_level` | P C Q |
| C110 | `AquaSettle` | `C110_settle` | P C Q |
| C111 | `RoundedMargStep` | `C111_step` | P C Q |
| C112 | `RoundedMargRest` | `C112_rest` | P C Q |
| C113 | `ArShake` | `C113_shake` | P C Q |
| C113 | `ArShake` | `C113_quarter` | P C Q |
| C113 | `ArShake` | `C113_back` | P C Q |
| C113 | `ArShake` | `C113_series` | P C Q |
| C113 | `ArShake` | `C113_reverse` | P C Q |
| C114 | `RoundedArTaylor` | `C114_step` | P C Q |
| C114 | `RoundedArTaylor` | `C114_track` | P C Q |
| C115 | `ArMotion` | `C115_closed` | P C Q |
| C115 | `ArMotion` | `C115_limit` | P C Q |
| C115 | `ArMotion` | `C115_taylor` | P C Q |
| C115 | `ArMotion` | `C115_left` | P C Q |
| C115 | `ArMotion` | `C115_euler` | P C Q |
| C115 | `ArMotion` | `C115_closedF` | P C Q |
| C115 | `ArMotion` | `C115_taylorF` | P C Q |
| C116 | `AquaTurn` | `C116_step` | P C Q |
| C116 | `AquaTurn` | `C116_turn` | P C Q |
| C116 | `AquaTurn` | `C116_lag` | P C Q |
| C116 | `AquaTurn` | `C116_lag_ge` | P C Q |
| C116 | `AquaTurn` | `C116_lag_half` | P C Q |
| C116 | `AquaTurn` | `C116_lag_lt` | P C Q |
| C116 | `AquaTurn` | `C116_worse` | P C Q |
| C116 | `AquaTurn` | `C116_motion` | P C Q |
| C116 | `AquaTurn` | `C116_free` | P C Q |
| C117 | `RoundedEigen` | `C117_qr` | P C Q |
| C117 | `RoundedEigen` | `C117_eigen` | P C Q |
| C118 | `RoundedQuatInv` | `C118_conjugate` | P C Q |
| C118 | `RoundedQuatInv` | `C118_invert` | P C Q |
| C118 | `RoundedQuatInv` | `C118_inverse` | P C Q |
| C118 | `RoundedQuatInv` | `C118_invert_small` | P C Q |
| C118 | `RoundedQuatInv` | `C118_invert_huge` | P C Q |
| C118 | `RoundedQuatInv` | `C118_exp_new` | P C Q |
| C118 | `RoundedQuatInv` | `C118_exp` | P C Q |
| C118 | `RoundedQuatInv` | `C118_pure` | P C Q |
| C118 | `RoundedQuatInv` | `C118_exp_real` | P C Q |
| C118 | `RoundedQuatInv` | `C118_whole` | P C Q |
| C119 | `AquaNoise` | `C119_step` | P C Q |
| C119 | `AquaNoise` | `C119_track` | P C Q |
| C119 | `AquaNoise` | `C119_succeeds` | P C Q |
| C120 | `RoundedMargMove` | `C120_step` | P C Q |
| C120 | `RoundedMargMove` | `C120_track` | P C Q |
| C120 | `RoundedMargMove` | `C120_truth` | P C Q |
| C121 | `RoundedComplex` | `Dsp.Complex.C121_ring` | P C Q |
| C121 | `RoundedComplex` | `Dsp.Complex.C121_neg` | P C Q |
| C121 | `RoundedComplex` | `Dsp.Complex.C121_div` | P C Q |
| C121 | `RoundedComplex` | `Dsp.Complex.C121_div_zero` | P C Q |
| C121 | `RoundedComplex` | `Dsp.Complex.C121_module` | P C Q |
| C121 | `RoundedComplex` | `Dsp.Complex.C121_module_inf` | P C Q |
| C121 | `RoundedComplex` | `Dsp.Complex.C121_polar` | P C Q |
| C121 | `RoundedComplex` | `Dsp.Complex.C121_expo` | P C Q |
| C121 | `RoundedComplex` | `TempDsp.Complex.C121_temp_ring` | P C Q |
| C121 | `RoundedComplex` | `TempDsp.Complex.C121_temp_neg` | P C Q |
| C121 | `RoundedComplex` | `TempDsp.Complex.C121_temp_div` | P C Q |
| C121 | `RoundedComplex` | `TempDsp.Complex.C121_temp_div_zero` | P C Q |
| C121 | `RoundedComplex` | `TempDsp.Complex.C121_temp_module` | P C Q |
| C121 | `RoundedComplex` | `TempDsp.Complex.C121_temp_module_inf` | P C Q |
| C121 | `RoundedComplex` | `TempDsp.Complex.C121_temp_polar` | P C Q |
| C121 | `RoundedComplex` | `TempDsp.Complex.C121_temp_expo` | P C Q |
| C121 | `RoundedComplex` | `C121_div_nan` | P C Q |
| C122 | `RoundedSo3` | `C122_gram` | P C Q |
| C122 | `RoundedSo3` | `C122_det` | P C Q |
| C122 | `RoundedSo3` | `C122_rotation` | P C Q |
| C122 | `RoundedSo3` | `C122_accept` | P C Q |
| C122 | `RoundedSo3` | `C122_adjugate` | P C Q |
| C122 | `RoundedSo3` | `C122_dcm` | P C Q |
| C122 | `RoundedSo3` | `C122_refused` | P C Q |
| C123 | `RoundedLog` | `C123_log` | P C Q |
| C123 | `RoundedLog` | `C123_rodrigues` | P C Q |
| C123 | `RoundedLog` | `C123_quaternion` | P C Q |
| C123 | `RoundedLog` | `C123_small` | P C Q |
| C123 | `RoundedLog` | `C123_above` | P C Q |
| C123 | `RoundedLog` | `C123_quaternion_above` | P C Q |
| C124 | `ArAngles` | `C124_angles` | P C Q |
| C124 | `ArAngles` | `AR.C124_closed` | P C Q |
| C124 | `ArAngles` | `AR.C124_taylor` | P C Q |
| C125 | `AquaAngles` | `Aqua.C125_attitude` | P C Q |
| C125 | `AquaAngles` | `Aqua.C125_angles` | P C Q |
| C125 | `AquaAngles` | `Aqua.C125_noisy` | P C Q |
| C126 | `AmAngles` | `Aqua.C126_aligned` | P C Q |
| C126 | `AmAngles` | `Aqua.C126_angles` | P C Q |
| C127 | `AdaptiveGain` | `Aqua.C127_same` | P C Q |
| C127 | `AdaptiveGain` | `Aqua.C127_off` | P C Q |
| C127 | `AdaptiveGain` | `Aqua.C127_calm` | P C Q |
| C127 | `AdaptiveGain` | `Aqua.C127_wild` | P C Q |
| C127 | `AdaptiveGain` | `Aqua.C127_twin` | P C Q |
| C127 | `AdaptiveGain` | `Aqua.C127_stuck` | P C Q |
| C128 | `Tolerance32` | `C128_mat` | P C Q |
| C128 | `Tolerance32` | `C128_vec` | P C Q |
| C128 | `Tolerance32` | `C128_large` | P C Q |
| C128 | `Tolerance32` | `C128_symmetric` | P C Q |
| C128 | `Tolerance32` | `C128_triangular` | P C Q |
| C128 | `Tolerance32` | `C128_quaternion` | P C Q |
| C128 | `Tolerance32` | `C128_slack` | P C Q |
| C129 | `PosDef32` | `C129_det` | P C Q |
| C129 | `PosDef32` | `C129_two` | P C Q |
| C129 | `PosDef32` | `C129_chol` | P C Q |
| C129 | `PosDef32` | `C129_small` | P C Q |
| C129 | `PosDef32` | `C129_block` | P C Q |
| C130 | `RoundedLr` | `C130_lr` | P C Q |
| C130 | `RoundedLr` | `C130_small` | P C Q |
| C130 | `RoundedLr` | `C130_upper` | P C Q |
| C130 | `RoundedLr` | `C130_crout` | P C Q |
| C130 | `RoundedLr` | `C130_wrong` | P C Q |
| C131 | `RoundedRandom` | `Ahrs.C131_values` | P C Q |
| C131 | `RoundedRandom` | `Ahrs.C131_unit` | P C Q |
| C132 | `RoundedSim` | `AhrsTest.C132_sensors` | P C Q |
| C132 | `RoundedSim` | `AhrsTest.C132_methods` | P C Q |
| C132 | `RoundedSim` | `AhrsTest.C132_test` | P C Q |
| C132 | `RoundedSim` | `AhrsTest.C132_cancel` | P C Q |
| C133 | `RoundedTestAll` | `AhrsTest.C133_test` | P C Q |
| C133 | `RoundedTestAr` | `AhrsTest.C133_ar` | P C Q |
| C134 | `RoundedYaw` | `C134_det` | P C Q |
| C134 | `RoundedYaw` | `C134_heading` | P C Q |
| C134 | `RoundedYaw` | `C134_angle` | P C Q |
| C135 | `RoundedAxes` | `C135_rotation` | P C Q |
| C135 | `RoundedAxes` | `C135_roll` | P C Q |
| C135 | `RoundedAxes` | `C135_pitch` | P C Q |
| C136 | `RoundedDiag` | `C136_upper` | P C Q |
| C136 | `RoundedDiag` | `C136_invert` | P C Q |
| C136 | `RoundedDiag` | `C136_chol` | P C Q |
| C136 | `RoundedDiag` | `C136_test` | P C Q |
| C136 | `RoundedDiag` | `C136_underflow` | P C Q |
| C136 | `RoundedUpper` | `C136_upper_invert` | P C Q |
| C137 | `RoundedShake` | `AR.C137_closed` | P C Q |
| C137 | `RoundedShake` | `AR.C137_euler` | P C Q |
| C137 | `RoundedShake` | `AR.C137_first` | P C Q |
| C137 | `RoundedShake` | `AR.C137_drift` | P C Q |
| C138 | `RoundedTrace` | `C138_trace` | P C Q |
| C138 | `RoundedTrace` | `C138_frobenius` | P C Q |
| C138 | `RoundedTrace` | `C138_overflow` | P C Q |
| C138 | `RoundedTrace` | `C138_outer` | P C Q |
| C139 | `RoundedExact` | `C139_comm` | P C Q |
| C139 | `RoundedExact` | `C139_zero` | P C Q |
| C139 | `RoundedExact` | `C139_exact` | P C Q |
| C139 | `RoundedExact` | `C139_undo` | P C Q |
| C139 | `RoundedExact` | `C139_exact_mat` | P C Q |
| C139 | `RoundedExact` | `C139_double` | P C Q |
| C139 | `RoundedExact` | `C139_identity` | P C Q |
| C139 | `RoundedExact` | `C139_quaternion` | P C Q |
| C140 | `RoundedBias` | `C140_gyr` | P C Q |
| C140 | `RoundedBias` | `C140_gyr_still` | P C Q |
| C140 | `RoundedBias` | `C140_acc` | P C Q |
| C140 | `RoundedBias` | `C140_acc_still` | P C Q |
| C140 | `RoundedBias` | `C140_mag` | P C Q |
| C140 | `RoundedBias` | `C140_mag_still` | P C Q |
| C141 | `RoundedRest` | `AR.C141_sample` | P C Q |
| C141 | `RoundedRest` | `AR.C141_rest` | P C Q |
| C141 | `RoundedRest` | `AR.C141_pause` | P C Q |
