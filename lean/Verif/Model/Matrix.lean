import Verif.Model.Vector

/-
Model of `linalg/src/matrix.rs` (storage, element access, element-wise operations, products,
transposition, predicates that do not need a factorisation) and of the two `Vector` methods that
mention `Matrix`.  The factorisations are in `Verif/Model/Decomp.lean`.
-/

namespace Verif
open Scalar

/-- `struct Matrix` — linalg/src/matrix.rs:13-20. -/
structure Mat (F : Type) where
  rows : Nat
  cols : Nat
  elements : Fin 16 → F
  initialized : Bool

namespace Mat
variable {F : Type} [Scalar F]

/-- `Matrix::default` / `Matrix::new` — linalg/src/matrix.rs:22-38. -/
def new : Mat F := { rows := 0, cols := 0, elements := fun _ => lit 0, initialized := false }

/-- `Matrix::init` — linalg/src/matrix.rs:41-56. -/
def init (rows cols : Nat) : Op LinalgError (Mat F) Unit := do
  let self ← Op.get
  if self.initialized then Op.fail .AlreadyInit
  else do
    isValidRowsNumber rows
    isValidColsNumber cols
    Op.modify fun self => { self with rows := rows, cols := cols, initialized := true }

/-- `Matrix::reinit` — linalg/src/matrix.rs:59-71. -/
def reinit (rows cols : Nat) : Op LinalgError (Mat F) Unit := do
  let self ← Op.get
  if !self.initialized then Op.fail .NotInit
  else do
    Op.modify fun self => { self with initialized := false }
    init rows cols

/-- `Matrix::get_rows` — linalg/src/matrix.rs:94-102. -/
def getRows (self : Mat F) : Res LinalgError Nat :=
  if !self.initialized then fail .NotInit else .ok self.rows

/-- `Matrix::set_rows` (crate private) — linalg/src/matrix.rs:105-123. -/
def setRows (rows : Nat) : Op LinalgError (Mat F) Unit := do
  let self ← Op.get
  if !self.initialized then Op.fail .NotInit
  else if rows = self.rows then Op.fail .UnchangedSize
  else do
    isValidRowsNumber rows
    Op.modify fun self => { self with rows := rows }

/-- `Matrix::get_cols` — linalg/src/matrix.rs:126-134. -/
def getCols (self : Mat F) : Res LinalgError Nat :=
  if !self.initialized then fail .NotInit else .ok self.cols

/-- `Matrix::set_cols` (crate private) — linalg/src/matrix.rs:137-182.  The new buffer is a local
array filled row by row and stored at the end. -/
def setCols (cols : Nat) : Op LinalgError (Mat F) Unit := do
  let self ← Op.get
  if !self.initialized then Op.fail .NotInit
  else if cols = self.cols then Op.fail .UnchangedSize
  else do
    isValidColsNumber cols
    let newElements ← (foldRange 0 self.rows
      (fun row newElements =>
        let oldOffset := row * self.cols
        let newOffset := row * cols
        foldRange 0 self.cols
          (fun col newElements => do
            arrSet newElements (newOffset + col) (← arrGet self.elements (oldOffset + col)))
          newElements)
      (fun _ => lit 0) : Res LinalgError (Fin 16 → F))
    Op.modify fun self => { self with cols := cols, elements := newElements }

/-- `Matrix::is_initialized` — linalg/src/matrix.rs:185-187. -/
def isInitialized (self : Mat F) : Bool := self.initialized

/-- `Matrix::set_element` — linalg/src/matrix.rs:190-208. -/
def setElement (row col : Nat) (value : F) : Op LinalgError (Mat F) Unit := do
  let self ← Op.get
  if !self.initialized then Op.fail .NotInit
  else do
    isValidValueL value
    isValidRow row self.rows
    isValidCol col self.cols
    let index := row * self.cols + col
    let a ← (arrSet self.elements index value : Res LinalgError _)
    Op.set { self with elements := a }

/-- `Matrix::get_element` — linalg/src/matrix.rs:211-227. -/
def getElement (self : Mat F) (row col : Nat) : Res LinalgError F :=
  if !self.initialized then fail .NotInit
  else do
    isValidRow row self.rows
    isValidCol col self.cols
    let index := row * self.cols + col
    arrGet self.elements index

/-- `Matrix::set_row` — linalg/src/matrix.rs:248-261. -/
def setRow (vect : Vec F) (row : Nat) : Op LinalgError (Mat F) Unit := do
  let self ← Op.get
  if self.cols ≠ (← vect.getRows) then Op.fail .InvalidSize
  else
    forRange 0 self.cols fun col => do
      setElement row col (← vect.getElement col)

/-- `Matrix::set_col` — linalg/src/matrix.rs:264-277. -/
def setCol (vect : Vec F) (col : Nat) : Op LinalgError (Mat F) Unit := do
  let self ← Op.get
  if self.rows ≠ (← vect.getRows) then Op.fail .InvalidSize
  else
    forRange 0 self.rows fun row => do
      setElement row col (← vect.getElement row)

/-- `Matrix::get_row` — linalg/src/matrix.rs:280-293.  The mutable object is the vector. -/
def getRow (self : Mat F) (row : Nat) : Op LinalgError (Vec F) Unit := do
  let vect ← Op.get
  if self.cols ≠ (← vect.getRows) then Op.fail .InvalidSize
  else
    forRange 0 self.cols fun col => do
      Vec.setElement col (← self.getElement row col)

/-- `Matrix::get_col` — linalg/src/matrix.rs:296-309.  The mutable object is the vector. -/
def getCol (self : Mat F) (col : Nat) : Op LinalgError (Vec F) Unit := do
  let vect ← Op.get
  if self.rows ≠ (← vect.getRows) then Op.fail .InvalidSize
  else
    forRange 0 self.rows fun row => do
      Vec.setElement row (← self.getElement row col)

/-- `Matrix::row_to_vector` — linalg/src/matrix.rs:312-319. -/
def rowToVector (self : Mat F) (row : Nat) : Res LinalgError (Vec F) := do
  let vect ← exec Vec.new (Vec.init self.cols)
  exec vect (self.getRow row)

/-- `Matrix::col_to_vector` — linalg/src/matrix.rs:322-329. -/
def colToVector (self : Mat F) (col : Nat) : Res LinalgError (Vec F) := do
  let vect ← exec Vec.new (Vec.init self.rows)
  exec vect (self.getCol col)

/-- `Matrix::add_row` — linalg/src/matrix.rs:332-349. -/
def addRow (vect : Vec F) (row : Nat) : Op LinalgError (Mat F) Unit := do
  let self ← Op.get
  let rows ← (u8Add F self.rows 1 : Res LinalgError Nat)
  isValidRowsNumber rows
  setRows rows
  let start ← (u8Add F row 1 : Res LinalgError Nat)
  let self ← Op.get
  forRangeRev start rows fun m =>
    forRange 0 self.cols fun col => do
      let self ← Op.get
      let m' ← (u8Sub F m 1 : Res LinalgError Nat)
      setElement m col (← self.getElement m' col)
  setRow vect row

/-- `Matrix::add_col` — linalg/src/matrix.rs:352-369. -/
def addCol (vect : Vec F) (col : Nat) : Op LinalgError (Mat F) Unit := do
  let self ← Op.get
  let cols ← (u8Add F self.cols 1 : Res LinalgError Nat)
  isValidColsNumber cols
  setCols cols
  let start ← (u8Add F col 1 : Res LinalgError Nat)
  let self ← Op.get
  forRangeRev start cols fun n =>
    forRange 0 self.rows fun row => do
      let self ← Op.get
      let n' ← (u8Sub F n 1 : Res LinalgError Nat)
      setElement row n (← self.getElement row n')
  setCol vect col

/-- `Matrix::del_row` — linalg/src/matrix.rs:372-446. -/
def delRow (row : Nat) : Op LinalgError (Mat F) (Vec F) := do
  let self ← Op.get
  let rows ← (u8Sub F self.rows 1 : Res LinalgError Nat)
  isValidRow row self.rows
  isValidRowsNumber rows
  let deletedRow ← exec Vec.new (Vec.init self.cols)
  let deletedRow ← foldRange 0 self.cols
    (fun col (deletedRow : Vec F) => do
      let element ← self.getElement row col
      exec deletedRow (Vec.setElement col element))
    deletedRow
  -- `row + 1` cannot overflow: `row < self.rows`
  forRange (row + 1) self.rows fun oldRow =>
    forRange 0 self.cols fun col => do
      let self ← Op.get
      let element ← self.getElement oldRow col
      setElement (oldRow - 1) col element
  Op.modify fun self => { self with rows := rows }
  return deletedRow

/-- `Matrix::fill` — linalg/src/matrix.rs:463-472. -/
def fill (value : F) : Op LinalgError (Mat F) Unit := do
  let self ← Op.get
  forRange 0 self.rows fun row => forRange 0 self.cols fun col => setElement row col value

/-- `Matrix::is_same_size_as` — linalg/src/matrix.rs:475-488. -/
def isSameSizeAs (self other : Mat F) : Res LinalgError Bool :=
  if !self.initialized || !other.initialized then fail .NotInit
  else if self.rows ≠ other.rows ∨ self.cols ≠ other.cols then .ok false
  else .ok true

/-- `Matrix::is_square` — linalg/src/matrix.rs:491-504. -/
def isSquare (self : Mat F) : Res LinalgError Bool :=
  if !self.initialized then fail .NotInit
  else if self.rows ≠ self.cols then .ok false
  else .ok true

/-- `Matrix::is_equal_to` — linalg/src/matrix.rs:507-529. -/
def isEqualTo (self other : Mat F) (deviation : F) : Res LinalgError Bool := do
  if !(← self.isSameSizeAs other) then .ok false
  else
    allRange 0 self.rows fun row =>
      allRange 0 self.cols fun col => do
        let element ← self.getElement row col
        let otherElement ← other.getElement row col
        allcloseL element otherElement deviation

/-- `Matrix::fill_identity` — linalg/src/matrix.rs:532-551. -/
def fillIdentity : Op LinalgError (Mat F) Unit := do
  let self ← Op.get
  if !(← self.isSquare) then Op.fail .NotSquare
  else
    forRange 0 self.rows fun row =>
      forRange 0 self.cols fun col =>
        if row = col then setElement row col (lit 1) else setElement row col (lit 0)

/-- `Matrix::copy_from` — linalg/src/matrix.rs:554-571. -/
def copyFrom (other : Mat F) : Op LinalgError (Mat F) Unit := do
  let self ← Op.get
  if !(← self.isSameSizeAs other) then Op.fail .NotSameSize
  else
    forRange 0 self.rows fun row =>
      forRange 0 self.cols fun col => do
        let element ← other.getElement row col
        setElement row col element

/-- `Matrix::duplicate` — linalg/src/matrix.rs:574-581. -/
def duplicate (self : Mat F) : Res LinalgError (Mat F) := do
  let d ← exec new (init self.rows self.cols)
  exec d (copyFrom self)

/-- `Matrix::add` — linalg/src/matrix.rs:584-602. -/
def add (matrix1 matrix2 : Mat F) : Op LinalgError (Mat F) Unit := do
  let self ← Op.get
  if !(← self.isSameSizeAs matrix1) then Op.fail .NotSameSize
  else if !(← self.isSameSizeAs matrix2) then Op.fail .NotSameSize
  else
    forRange 0 self.rows fun row =>
      forRange 0 self.cols fun col => do
        let sum := (← matrix1.getElement row col) +ᶠ (← matrix2.getElement row col)
        setElement row col sum

/-- `Matrix::add_in_place` — linalg/src/matrix.rs:605-623. -/
def addInPlace (other : Mat F) : Op LinalgError (Mat F) Unit := do
  let self ← Op.get
  if !(← self.isSameSizeAs other) then Op.fail .NotSameSize
  else
    forRange 0 self.rows fun row =>
      forRange 0 self.cols fun col => do
        let self ← Op.get
        let sum := (← self.getElement row col) +ᶠ (← other.getElement row col)
        setElement row col sum

/-- `Matrix::add_new` — linalg/src/matrix.rs:626-639. -/
def addNew (self other : Mat F) : Res LinalgError (Mat F) := do
  if !(← self.isSameSizeAs other) then fail .NotSameSize
  else do
    let r ← exec new (init self.rows self.cols)
    exec r (add self other)

/-- `Matrix::add_scalar` — linalg/src/matrix.rs:642-660. -/
def addScalar (other : Mat F) (scalar : F) : Op LinalgError (Mat F) Unit := do
  let self ← Op.get
  if !(← self.isSameSizeAs other) then Op.fail .NotSameSize
  else
    forRange 0 self.rows fun row =>
      forRange 0 self.cols fun col => do
        let element := (← other.getElement row col) +ᶠ scalar
        setElement row col element

/-- `Matrix::add_scalar_in_place` — linalg/src/matrix.rs:663-675. -/
def addScalarInPlace (scalar : F) : Op LinalgError (Mat F) Unit := do
  let self ← Op.get
  forRange 0 self.rows fun row =>
    forRange 0 self.cols fun col => do
      let self ← Op.get
      let element := (← self.getElement row col) +ᶠ scalar
      setElement row col element

/-- `Matrix::add_scalar_new` — linalg/src/matrix.rs:678-699. -/
def addScalarNew (self : Mat F) (scalar : F) : Res LinalgError (Mat F) :=
  if !self.initialized then fail .NotInit
  else do
    let r ← exec new (init self.rows self.cols)
    exec r (forRange 0 self.rows fun row =>
      forRange 0 self.cols fun col => do
        let element := (← self.getElement row col) +ᶠ scalar
        setElement row col element)

/-- `Matrix::sub` — linalg/src/matrix.rs:702-720. -/
def sub (matrix1 matrix2 : Mat F) : Op LinalgError (Mat F) Unit := do
  let self ← Op.get
  if !(← self.isSameSizeAs matrix1) then Op.fail .NotSameSize
  else if !(← self.isSameSizeAs matrix2) then Op.fail .NotSameSize
  else
    forRange 0 self.rows fun row =>
      forRange 0 self.cols fun col => do
        let difference := (← matrix1.getElement row col) -ᶠ (← matrix2.getElement row col)
        setElement row col difference

/-- `Matrix::sub_in_place` — linalg/src/matrix.rs:723-741. -/
def subInPlace (other : Mat F) : Op LinalgError (Mat F) Unit := do
  let self ← Op.get
  if !(← self.isSameSizeAs other) then Op.fail .NotSameSize
  else
    forRange 0 self.rows fun row =>
      forRange 0 self.cols fun col => do
        let self ← Op.get
        let difference := (← self.getElement row col) -ᶠ (← other.getElement row col)
        setElement row col difference

/-- `Matrix::sub_new` — linalg/src/matrix.rs:744-757. -/
def subNew (self other : Mat F) : Res LinalgError (Mat F) := do
  if !(← self.isSameSizeAs other) then fail .NotSameSize
  else do
    let r ← exec new (init self.rows self.cols)
    exec r (sub self other)

/-- `Matrix::sub_scalar` — linalg/src/matrix.rs:760-778. -/
def subScalar (other : Mat F) (scalar : F) : Op LinalgError (Mat F) Unit := do
  let self ← Op.get
  if !(← self.isSameSizeAs other) then Op.fail .NotSameSize
  else
    forRange 0 self.rows fun row =>
      forRange 0 self.cols fun col => do
        let element := (← other.getElement row col) -ᶠ scalar
        setElement row col element

/-- `Matrix::sub_scalar_in_place` — linalg/src/matrix.rs:781-793. -/
def subScalarInPlace (scalar : F) : Op LinalgError (Mat F) Unit := do
  let self ← Op.get
  forRange 0 self.rows fun row =>
    forRange 0 self.cols fun col => do
      let self ← Op.get
      let element := (← self.getElement row col) -ᶠ scalar
      setElement row col element

/-- `Matrix::sub_scalar_new` — linalg/src/matrix.rs:796-809. -/
def subScalarNew (self : Mat F) (scalar : F) : Res LinalgError (Mat F) :=
  if !self.initialized then fail .NotInit
  else do
    let r ← exec new (init self.rows self.cols)
    exec r (subScalar self scalar)

/-- The innermost loop of `Matrix::mul` — linalg/src/matrix.rs:820-829: the running sum `element`
is a local variable and is stored after every step. -/
def mulCell (matrix1 matrix2 : Mat F) (row col2 : Nat) : (col1 len : Nat) → (element : F) →
    Op LinalgError (Mat F) Unit
  | _, 0, _ => pure ()
  | col1, len + 1, element => do
    let element1 ← matrix1.getElement row col1
    let element2 ← matrix2.getElement col1 col2
    let element := element +ᶠ (element1 *ᶠ element2)
    setElement row col2 element
    mulCell matrix1 matrix2 row col2 (col1 + 1) len element

/-- `Matrix::mul` — linalg/src/matrix.rs:813-834. -/
def mul (matrix1 matrix2 : Mat F) : Op LinalgError (Mat F) Unit := do
  let self ← Op.get
  if matrix1.cols ≠ matrix2.rows ∨ self.rows ≠ matrix1.rows ∨ self.cols ≠ matrix2.cols then
    Op.fail .InvalidSize
  else
    forRange 0 matrix1.rows fun row =>
      forRange 0 matrix2.cols fun col2 =>
        mulCell matrix1 matrix2 row col2 0 matrix1.cols (lit 0)

/-- `Matrix::mul_new` — linalg/src/matrix.rs:837-847. -/
def mulNew (self other : Mat F) : Res LinalgError (Mat F) := do
  let m ← self.getRows
  let k ← other.getCols
  let r ← exec new (init m k)
  exec r (mul self other)

/-- `Matrix::transpose` — linalg/src/matrix.rs:850-890. -/
def transpose : Op LinalgError (Mat F) Unit := do
  let self ← Op.get
  if !self.initialized then Op.fail .NotInit
  else if (← self.isSquare) then
    forRange 0 self.rows fun row =>
      forRange (row + 1) self.cols fun col => do
        let self ← Op.get
        let tempElement ← self.getElement row col
        setElement row col (← self.getElement col row)
        setElement col row tempElement
  else do
    let temp ← exec new (init self.cols self.rows)
    let temp ← exec temp (forRange 0 self.rows fun row =>
      forRange 0 self.cols fun col => do
        setElement col row (← self.getElement row col) : Op LinalgError (Mat F) Unit)
    Op.modify fun s => { s with rows := self.cols, cols := self.rows }
    copyFrom temp

/-- `Matrix::transpose_new` — linalg/src/matrix.rs:893-898. -/
def transposeNew (self : Mat F) : Res LinalgError (Mat F) := do
  let t ← self.duplicate
  exec t transpose

/-- `Matrix::mul_by_scalar_in_place` — linalg/src/matrix.rs:939-949. -/
def mulByScalarInPlace (scalar : F) : Op LinalgError (Mat F) Unit := do
  let self ← Op.get
  forRange 0 self.rows fun row =>
    forRange 0 self.cols fun col => do
      let self ← Op.get
      let element := (← self.getElement row col) *ᶠ scalar
      setElement row col element

/-- `Matrix::power_elements` — linalg/src/matrix.rs:952-962. -/
def powerElements (exponent : F) : Op LinalgError (Mat F) Unit := do
  let self ← Op.get
  forRange 0 self.rows fun row =>
    forRange 0 self.cols fun col => do
      let self ← Op.get
      let element := Scalar.pow (← self.getElement row col) exponent
      setElement row col element

/-- `Matrix::trace` — linalg/src/matrix.rs:973-988. -/
def trace (self : Mat F) : Res LinalgError F := do
  if !(← self.isSquare) then fail .NotSquare
  else
    foldRange 0 (Utils.minU8 self.rows self.cols)
      (fun i trace => do .ok (trace +ᶠ (← self.getElement i i)))
      (lit 0)

/-- `Matrix::is_upper_triangular` — linalg/src/matrix.rs:1218-1231. -/
def isUpperTriangular (self : Mat F) : Res LinalgError Bool :=
  allRange 1 self.rows fun row =>
    allRange 0 row fun col => do
      allcloseL (← self.getElement row col) (lit 0) EPSILON

/-- `Matrix::is_lower_triangular` — linalg/src/matrix.rs:1234-1247. -/
def isLowerTriangular (self : Mat F) : Res LinalgError Bool := do
  let last ← (u8Sub F self.rows 1 : Res LinalgError Nat)
  allRange 0 last fun row =>
    allRange (row + 1) self.cols fun col => do
      allcloseL (← self.getElement row col) (lit 0) EPSILON

/-- `Matrix::calculate_frobenius_norm` — linalg/src/matrix.rs:1250-1263. -/
def calculateFrobeniusNorm (self : Mat F) : Res LinalgError F := do
  let sq ← foldRange 0 self.rows
    (fun row acc => foldRange 0 self.cols
      (fun col acc => do
        .ok (acc +ᶠ ((← self.getElement row col) *ᶠ (← self.getElement row col))))
      acc)
    (lit 0)
  .ok (Scalar.sqrt sq)

/-- `Matrix::is_symmetric` — linalg/src/matrix.rs:1440-1457. -/
def isSymmetric (self : Mat F) : Res LinalgError Bool := do
  if !(← self.isSquare) then .ok false
  else
    allRange 0 self.rows fun row =>
      allRange 0 self.cols fun col => do
        allcloseL (← self.getElement row col) (← self.getElement col row) EPSILON

/-- `Matrix::diag` — linalg/src/matrix.rs:1664-1697.  `k` is an `i8`; `x as i8`, `x as u8` are the
two's complement conversions. -/
def diag (self : Mat F) (k : Option Int) : Res LinalgError (Vec F) := do
  let m : Int := wrapI8 self.rows
  let n : Int := wrapI8 self.cols
  let k : Int := k.getD 0
  let diagLen ← (if k ≥ 0 then do
      .ok (Utils.minInt m (← i8Result F (n - k)))
    else do
      .ok (Utils.minInt (← i8Result F (m + k)) n) : Res LinalgError Int)
  if diagLen ≤ 0 then fail .InvalidDiagonalLength
  else do
    let vect ← exec Vec.new (Vec.init (diagLen % 256).toNat)
    foldRange 0 diagLen.toNat
      (fun i (vect : Vec F) => do
        let i : Int := i
        let row ← (if k ≥ 0 then .ok i else i8Result F (i - k) : Res LinalgError Int)
        let col ← (if k ≥ 0 then i8Result F (i + k) else .ok i : Res LinalgError Int)
        let element ← self.getElement (row % 256).toNat (col % 256).toNat
        exec vect (Vec.setElement (i % 256).toNat element))
      vect

end Mat

namespace Vec
variable {F : Type} [Scalar F]

/-- `Vector<f32>::outer_product` — linalg/src/vector.rs:548-564. -/
def outerProduct (self other : Vec F) : Res LinalgError (Mat F) := do
  let m ← self.getRows
  let n ← other.getRows
  let r ← exec Mat.new (Mat.init m n)
  exec r (forRange 0 m fun row =>
    forRange 0 n fun col => do
      let element := (← self.getElement row) *ᶠ (← other.getElement col)
      Mat.setElement row col element)

/-- `Vector<f32>::convert_to_matrix` — linalg/src/vector.rs:646-655. -/
def convertToMatrix (self : Vec F) : Res LinalgError (Mat F) := do
  let rows ← self.getRows
  let mat ← exec Mat.new (Mat.init rows 1)
  exec mat (Mat.setCol self 0)

end Vec
end Verif
