import Verif.F32
import Verif.Model.Quaternion

/-
The unit tests of the project as programs of the model, run in binary32 by the kernel.  They check the model against
what the authors expect of the code; they are not claims.  The lines are those of `linalg/src/lib.rs` and
`quaternion/src/lib.rs`.  The calls of `print` are left out.
-/

namespace Verif.RepoTests
open Scalar

/-- `result.is_ok()`. -/
def isOk {ε α : Type} : Res ε α → Bool
  | .ok _ => true
  | .error _ => false

/-- `Matrix::new` and `init(rows, cols).unwrap()`. -/
def mat (rows cols : Nat) : Res LinalgError (Mat F32) := exec Mat.new (Mat.init rows cols)

/-- `Vector::new` and `init(rows).unwrap()`. -/
def vec (rows : Nat) : Res LinalgError (Vec F32) := exec Vec.new (Vec.init rows)

/-- A 3 × 3 matrix stored by nine calls of `set_element(_, _, _).unwrap()` in the order of the rows. -/
def mat3 (l : List (List ℚ)) : Res LinalgError (Mat F32) := do
  let m ← mat 3 3
  foldRange 0 3 (fun row m => foldRange 0 3
    (fun col m => exec m (Mat.setElement row col (lit ((l.getD row []).getD col 0)))) m) m

/-- `assert_eq!` in a test that returns what it found. -/
def assert (b : Bool) : Res LinalgError Unit := if b then .ok () else .error .panic

/-! `matrix_tests` — linalg/src/lib.rs:10-683. -/

/-- `init_test_1` to `init_test_6` — 19-100. -/
example : isOk (mat 4 4) = true := by decide +kernel
example : (Mat.init 0 4 (Mat.new : Mat F32)).1 = fail .RowsNumberNull := by decide +kernel
example : (Mat.init 4 0 (Mat.new : Mat F32)).1 = fail .ColsNumberNull := by decide +kernel
example : (Mat.init 5 4 (Mat.new : Mat F32)).1 = fail .RowsNumberOverflow := by decide +kernel
example : (Mat.init 4 5 (Mat.new : Mat F32)).1 = fail .ColsNumberOverflow := by decide +kernel
example : (do let m ← mat 4 4; (Mat.init 4 4 m).1) = fail .AlreadyInit := by decide +kernel

/-- `set_element_test_1` to `set_element_test_4` and `get_element_test_1` — 103-181. -/
example : (do
    let m ← mat 4 4
    let _ ← foldRange 0 4 (fun row m => foldRange 0 4 (fun col m => do
      let m ← exec m (Mat.setElement row col (lit 1))
      assert ((← m.getElement row col) = lit 1)
      .ok m) m) m
    .ok ()) = .ok () := by decide +kernel
example : (Mat.setElement 0 0 (lit 1) (Mat.new : Mat F32)).1 = fail .NotInit := by decide +kernel
example : (do let m ← mat 4 4; (Mat.setElement 4 0 (lit 1) m).1) = fail .InvalidRow := by decide +kernel
example : (do let m ← mat 4 4; (Mat.setElement 0 4 (lit 1) m).1) = fail .InvalidCol := by decide +kernel

/-- `get_element_test_2` to `get_element_test_4` — 183-224. -/
example : (Mat.new : Mat F32).getElement 0 0 = fail .NotInit := by decide +kernel
example : (do let m ← mat 4 4; m.getElement 4 0) = fail .InvalidRow := by decide +kernel
example : (do let m ← mat 4 4; m.getElement 0 4) = fail .InvalidCol := by decide +kernel

/-- `get_rows_test_1` to `get_cols_test_2` — 226-276. -/
example : (do let m ← mat 4 4; m.getRows) = .ok 4 := by decide +kernel
example : (Mat.new : Mat F32).getRows = fail .NotInit := by decide +kernel
example : (do let m ← mat 4 4; m.getCols) = .ok 4 := by decide +kernel
example : (Mat.new : Mat F32).getCols = fail .NotInit := by decide +kernel

/-- `fill_matrix_test` — 278-299. -/
example : (do
    let m ← exec (← mat 4 4) (Mat.fill (lit 1))
    foldRange 0 4 (fun row _ => foldRange 0 4 (fun col _ => do assert ((← m.getElement row col) = lit 1)) ()) ()) =
    .ok () := by decide +kernel

/-- `is_square_test_1` to `is_square_test_3` — 301-340. -/
example : (do let m ← mat 3 3; m.isSquare) = .ok true := by decide +kernel
example : (do let m ← mat 3 2; m.isSquare) = .ok false := by decide +kernel
example : (Mat.new : Mat F32).isSquare = fail .NotInit := by decide +kernel

/-- `fill_identity_test_1` and `fill_identity_test_2` — 342-382. -/
example : (do
    let m ← exec (← mat 3 3) Mat.fillIdentity
    foldRange 0 3 (fun row _ => foldRange 0 3 (fun col _ => do
      assert ((← m.getElement row col) = if row = col then lit 1 else lit 0)) ()) ()) = .ok () := by decide +kernel
example : (do let m ← mat 3 4; (Mat.fillIdentity m).1) = fail .NotSquare := by decide +kernel

/-- `is_same_size_as_test_1` and `is_same_size_as_test_2` — 384-421. -/
example : (do (← mat 3 3).isSameSizeAs (← mat 3 3)) = .ok true := by decide +kernel
example : (do (← mat 3 4).isSameSizeAs (← mat 3 3)) = .ok false := by decide +kernel

/-- `foo`, `bar`, `foofoo` and `foobar`, which only print — 423-510.  Here: what they print. -/
def rows3 (m : Mat F32) (rows cols : Nat) : Res LinalgError (List (List F32)) :=
  (List.range rows).mapM fun i => (List.range cols).mapM fun j => m.getElement i j

example : (do
    let v ← exec (← vec 3) (Vec.fill (lit 1))
    rows3 (← exec (← mat 3 3) (Mat.setRow v 1)) 3 3) =
    .ok [[lit 0, lit 0, lit 0], [lit 1, lit 1, lit 1], [lit 0, lit 0, lit 0]] := by decide +kernel
example : (do
    let v ← exec (← vec 3) (Vec.fill (lit 1))
    let m ← exec (← mat 3 3) (Mat.fill (lit 2))
    rows3 (← exec m (Mat.addRow v 2)) 4 3) =
    .ok [[lit 2, lit 2, lit 2], [lit 2, lit 2, lit 2], [lit 1, lit 1, lit 1], [lit 2, lit 2, lit 2]] := by
  decide +kernel
example : (do
    let v ← exec (← vec 3) (Vec.fill (lit 1))
    rows3 (← exec (← mat 3 3) (Mat.setCol v 2)) 3 3) =
    .ok [[lit 0, lit 0, lit 1], [lit 0, lit 0, lit 1], [lit 0, lit 0, lit 1]] := by decide +kernel
example : (do
    let v ← exec (← vec 3) (Vec.fill (lit 1))
    let m ← exec (← mat 3 3) (Mat.fill (lit 2))
    rows3 (← exec m (Mat.addCol v 3)) 3 4) =
    .ok [[lit 2, lit 2, lit 2, lit 1], [lit 2, lit 2, lit 2, lit 1], [lit 2, lit 2, lit 2, lit 1]] := by
  decide +kernel

/-- `test1` — 512-552: the determinant, which is printed with three decimals, is 3. -/
example : (do (← mat3 [[1, 2, 3], [0, 1, 9/2], [5, 6, 0]]).det) = .ok (lit (12582903 / 4194304)) := by decide +kernel

/-- `test2` — 554-579. -/
example : isOk (do (← mat3 [[4, -1, 2], [-1, 5, -3], [2, -3, 6]]).chol) = true := by decide +kernel

/-- `diag_test` — 581-613. -/
example : (do
    let v ← (← mat3 [[0, 1, 2], [3, 4, 5], [6, 7, 8]]).diag (some (-1))
    .ok (← v.getRows, [← v.getElement 0, ← v.getElement 1])) = .ok (2, [lit 3, lit 7]) := by decide +kernel

/-- `lr_factorization_test` — 616-640. -/
example : isOk (do (← mat3 [[7, 1, 3], [4, 8, 5], [2, 3, 6]]).lr) = true := by decide +kernel

/-- `det_naive_test` — 642-665. -/
example : (do (← mat3 [[1, 2, 3], [4, 5, 13/2], [7, 8, 9]]).detNaive) = .ok (lit 3) := by decide +kernel

/-- `delete_row_test` — 667-683. -/
example : (do
    let (v, m) ← execVal (← mat3 [[1, 2, 3], [4, 5, 6], [7, 8, 9]]) (Mat.delRow 1)
    .ok (← m.getRows, ← rows3 m 2 3, [← v.getElement 0, ← v.getElement 1, ← v.getElement 2])) =
    .ok (2, [[lit 1, lit 2, lit 3], [lit 7, lit 8, lit 9]], [lit 4, lit 5, lit 6]) := by decide +kernel

/-! `quaternion_tests` — quaternion/src/lib.rs:6-89. -/

/-- The four components. -/
def comps (q : Vec F32) : Res LinalgError (List F32) := do
  .ok [← Quat.getQw q, ← Quat.getQx q, ← Quat.getQy q, ← Quat.getQz q]

/-- `fill_test` — 11-41. -/
example : (do comps (← exec (← vec 4) (Quat.fillq (lit 1) (lit 2) (lit 3) (lit 4)))) =
    .ok [lit 1, lit 2, lit 3, lit 4] := by decide +kernel

/-- `mull_test` — 44-88. -/
example : (do
    let p ← exec (← vec 4) (Quat.fillq (lit 2) (lit 3) (lit 2) (lit 3))
    let q ← exec (← vec 4) (Quat.fillq (lit 3) (lit 2) (lit 3) (lit 2))
    comps (← exec (← vec 4) (Quat.mul p q))) = .ok [lit (-12), lit 8, lit 12, lit 18] := by decide +kernel

end Verif.RepoTests
