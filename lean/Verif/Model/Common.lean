import Verif.Model.Utils

/-
Model of `linalg/src/common.rs`.
-/

namespace Verif
open Scalar

/-- `M_MAX` — linalg/src/common.rs:5. -/
def M_MAX : Nat := 4
/-- `N_MAX` — linalg/src/common.rs:6. -/
def N_MAX : Nat := 4

section
variable {F : Type} [Scalar F]
/-- `EPSILON` — linalg/src/common.rs:7. -/
def EPSILON : F := lit (1 / 10000)
/-- `PI` — linalg/src/common.rs:8. -/
def PI : F := lit (3141592653589793 / 1000000000000000)
/-- `E` — linalg/src/common.rs:9. -/
def E : F := lit (2718281828459045 / 1000000000000000)
end

/-- `enum LinalgError` — linalg/src/common.rs:15-37. -/
inductive LinalgError where
  | NotInit
  | AlreadyInit
  | RowsNumberOverflow
  | RowsNumberNull
  | ColsNumberOverflow
  | ColsNumberNull
  | InvalidRow
  | InvalidCol
  | NotSquare
  | NotSameSize
  | UnchangedSize
  | InvalidSize
  | Unsolvable
  | Singular
  | NotPositiveDefinite
  | NotSymetric
  | NotInversible
  | InvalidAlpha
  | InvalidDiagonalLength
  | LUFailed
  | UtilsError (e : Verif.UtilsError)
  deriving DecidableEq, Repr

/-- `is_valid_rows_number` — linalg/src/common.rs:40-54. -/
def isValidRowsNumber (rows : Nat) : Res LinalgError Unit :=
  if rows > M_MAX then fail .RowsNumberOverflow
  else if rows = 0 then fail .RowsNumberNull
  else .ok ()

/-- `is_valid_cols_number` — linalg/src/common.rs:57-71. -/
def isValidColsNumber (cols : Nat) : Res LinalgError Unit :=
  if cols > N_MAX then fail .ColsNumberOverflow
  else if cols = 0 then fail .ColsNumberNull
  else .ok ()

/-- `is_valid_row` — linalg/src/common.rs:74-82. -/
def isValidRow (row rows : Nat) : Res LinalgError Unit :=
  if row ≥ rows then fail .InvalidRow else .ok ()

/-- `is_valid_col` — linalg/src/common.rs:85-93. -/
def isValidCol (col cols : Nat) : Res LinalgError Unit :=
  if col ≥ cols then fail .InvalidCol else .ok ()

/-- `is_valid_value(value).map_err(LinalgError::UtilsError)` as used throughout linalg. -/
def isValidValueL {F : Type} [Scalar F] (value : F) : Res LinalgError Unit :=
  (Utils.isValidValue value).mapErr .UtilsError

/-- `allclose(x, y, deviation).map_err(LinalgError::UtilsError)` as used throughout linalg. -/
def allcloseL {F : Type} [Scalar F] (x y deviation : F) : Res LinalgError Bool :=
  (Utils.allclose x y deviation).mapErr .UtilsError

end Verif
