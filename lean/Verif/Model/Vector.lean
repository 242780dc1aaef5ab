import Verif.Model.Common

/-
Model of `linalg/src/vector.rs`, except `outer_product` and `convert_to_matrix`, which mention
`Matrix` and are in `Verif/Model/Matrix.lean`.

`&mut self` methods are `Op`s; read-only methods and constructors are `Res`-valued functions.
`u8` row indices are natural numbers.
-/

namespace Verif
open Scalar

/-- `struct Vector<T>` — linalg/src/vector.rs:10-16. -/
structure Vec (T : Type) where
  rows : Nat
  elements : Fin 4 → T
  initialized : Bool

namespace Vec

section Generic
variable {T : Type}

/-- `Vector::new` (and the derived `Default`) — linalg/src/vector.rs:20-26; `d` is
`T::default()`. -/
def newWith (d : T) : Vec T := { rows := 0, elements := fun _ => d, initialized := false }

/-- `Vector::init` — linalg/src/vector.rs:29-42. -/
def init (rows : Nat) : Op LinalgError (Vec T) Unit := do
  let self ← Op.get
  if self.initialized then Op.fail .AlreadyInit
  else do
    isValidRowsNumber rows
    Op.modify fun self => { self with rows := rows, initialized := true }

/-- `Vector::reinit` — linalg/src/vector.rs:45-57. -/
def reinit (rows : Nat) : Op LinalgError (Vec T) Unit := do
  let self ← Op.get
  if !self.initialized then Op.fail .NotInit
  else do
    Op.modify fun self => { self with initialized := false }
    init rows

/-- `Vector::get_rows` — linalg/src/vector.rs:60-68. -/
def getRows (self : Vec T) : Res LinalgError Nat :=
  if !self.initialized then fail .NotInit else .ok self.rows

/-- `Vector::is_initialized` — linalg/src/vector.rs:92-94. -/
def isInitialized (self : Vec T) : Bool := self.initialized

/-- Indexing `self.elements[row as usize]` for reading (shared by the `get_element`s). -/
def readElement (self : Vec T) (row : Nat) : Res LinalgError T := arrGet self.elements row

/-- Indexing `self.elements[row as usize] = value` (shared by the `set_element`s). -/
def writeElement (row : Nat) (value : T) : Op LinalgError (Vec T) Unit := do
  let self ← Op.get
  let a ← (arrSet self.elements row value : Res LinalgError _)
  Op.set { self with elements := a }

end Generic

/-- `Vector::<u8>::new` — linalg/src/vector.rs:20-26 at `T = u8`. -/
def newU8 : Vec Nat := newWith 0

/-- `Vector<u8>::set_element` — linalg/src/vector.rs:99-111. -/
def setElementU8 (row value : Nat) : Op LinalgError (Vec Nat) Unit := do
  let self ← Op.get
  if !self.initialized then Op.fail .NotInit
  else do
    isValidRow row self.rows
    writeElement row value

/-- `Vector<u8>::get_element` — linalg/src/vector.rs:114-126. -/
def getElementU8 (self : Vec Nat) (row : Nat) : Res LinalgError Nat :=
  if !self.initialized then fail .NotInit
  else do
    isValidRow row self.rows
    readElement self row

variable {F : Type} [Scalar F]

/-- `Vector::<f32>::new` — linalg/src/vector.rs:20-26 at `T = f32`. -/
def new : Vec F := newWith (lit 0)

/-- `Vector<f32>::set_element` — linalg/src/vector.rs:131-145. -/
def setElement (row : Nat) (value : F) : Op LinalgError (Vec F) Unit := do
  let self ← Op.get
  if !self.initialized then Op.fail .NotInit
  else do
    isValidValueL value
    isValidRow row self.rows
    writeElement row value

/-- `Vector<f32>::get_element` — linalg/src/vector.rs:148-160. -/
def getElement (self : Vec F) (row : Nat) : Res LinalgError F :=
  if !self.initialized then fail .NotInit
  else do
    isValidRow row self.rows
    readElement self row

/-- `Vector<f32>::fill` — linalg/src/vector.rs:177-184. -/
def fill (value : F) : Op LinalgError (Vec F) Unit := do
  let self ← Op.get
  forRange 0 self.rows fun row => setElement row value

/-- `Vector<f32>::is_same_size_as` — linalg/src/vector.rs:187-199. -/
def isSameSizeAs (self other : Vec F) : Res LinalgError Bool :=
  if !self.initialized || !other.initialized then fail .NotInit
  else if self.rows ≠ other.rows then .ok false
  else .ok true

/-- `Vector<f32>::is_equal_to` — linalg/src/vector.rs:202-222. -/
def isEqualTo (self other : Vec F) (deviation : F) : Res LinalgError Bool := do
  if !(← self.isSameSizeAs other) then .ok false
  else
    allRange 0 self.rows fun row => do
      let element ← self.getElement row
      let otherElement ← other.getElement row
      allcloseL element otherElement deviation

/-- `Vector<f32>::copy_from` — linalg/src/vector.rs:225-238. -/
def copyFrom (other : Vec F) : Op LinalgError (Vec F) Unit := do
  let self ← Op.get
  if !(← self.isSameSizeAs other) then Op.fail .NotSameSize
  else
    forRange 0 self.rows fun row => do
      let element ← other.getElement row
      setElement row element

/-- `Vector<f32>::duplicate` — linalg/src/vector.rs:241-248. -/
def duplicate (self : Vec F) : Res LinalgError (Vec F) := do
  let d ← exec new (init self.rows)
  exec d (copyFrom self)

/-- `Vector<f32>::add` — linalg/src/vector.rs:251-266. -/
def add (vector1 vector2 : Vec F) : Op LinalgError (Vec F) Unit := do
  let self ← Op.get
  if !(← self.isSameSizeAs vector1) then Op.fail .NotSameSize
  else if !(← self.isSameSizeAs vector2) then Op.fail .NotSameSize
  else
    forRange 0 self.rows fun row => do
      let sum := (← vector1.getElement row) +ᶠ (← vector2.getElement row)
      setElement row sum

/-- `Vector<f32>::add_in_place` — linalg/src/vector.rs:269-284. -/
def addInPlace (other : Vec F) : Op LinalgError (Vec F) Unit := do
  let self ← Op.get
  if !(← self.isSameSizeAs other) then Op.fail .NotSameSize
  else
    forRange 0 self.rows fun row => do
      let self ← Op.get
      let sum := (← self.getElement row) +ᶠ (← other.getElement row)
      setElement row sum

/-- `Vector<f32>::add_new` — linalg/src/vector.rs:287-300. -/
def addNew (self other : Vec F) : Res LinalgError (Vec F) := do
  if !(← self.isSameSizeAs other) then fail .NotSameSize
  else do
    let r ← exec new (init self.rows)
    exec r (add self other)

/-- `Vector<f32>::add_scalar` — linalg/src/vector.rs:303-318. -/
def addScalar (other : Vec F) (scalar : F) : Op LinalgError (Vec F) Unit := do
  let self ← Op.get
  if !(← self.isSameSizeAs other) then Op.fail .NotSameSize
  else
    forRange 0 self.rows fun row => do
      let element := (← other.getElement row) +ᶠ scalar
      setElement row element

/-- `Vector<f32>::add_scalar_in_place` — linalg/src/vector.rs:321-330. -/
def addScalarInPlace (scalar : F) : Op LinalgError (Vec F) Unit := do
  let self ← Op.get
  forRange 0 self.rows fun row => do
    let self ← Op.get
    let element := (← self.getElement row) +ᶠ scalar
    setElement row element

/-- `Vector<f32>::add_scalar_new` — linalg/src/vector.rs:333-346. -/
def addScalarNew (self : Vec F) (scalar : F) : Res LinalgError (Vec F) :=
  if !self.initialized then fail .NotInit
  else do
    let r ← exec new (init self.rows)
    exec r (addScalar self scalar)

/-- `Vector<f32>::sub` — linalg/src/vector.rs:349-364. -/
def sub (vector1 vector2 : Vec F) : Op LinalgError (Vec F) Unit := do
  let self ← Op.get
  if !(← self.isSameSizeAs vector1) then Op.fail .NotSameSize
  else if !(← self.isSameSizeAs vector2) then Op.fail .NotSameSize
  else
    forRange 0 self.rows fun row => do
      let difference := (← vector1.getElement row) -ᶠ (← vector2.getElement row)
      setElement row difference

/-- `Vector<f32>::sub_in_place` — linalg/src/vector.rs:367-382. -/
def subInPlace (other : Vec F) : Op LinalgError (Vec F) Unit := do
  let self ← Op.get
  if !(← self.isSameSizeAs other) then Op.fail .NotSameSize
  else
    forRange 0 self.rows fun row => do
      let self ← Op.get
      let difference := (← self.getElement row) -ᶠ (← other.getElement row)
      setElement row difference

/-- `Vector<f32>::sub_new` — linalg/src/vector.rs:385-398. -/
def subNew (self other : Vec F) : Res LinalgError (Vec F) := do
  if !(← self.isSameSizeAs other) then fail .NotSameSize
  else do
    let r ← exec new (init self.rows)
    exec r (sub self other)

/-- `Vector<f32>::sub_scalar` — linalg/src/vector.rs:401-416. -/
def subScalar (other : Vec F) (scalar : F) : Op LinalgError (Vec F) Unit := do
  let self ← Op.get
  if !(← self.isSameSizeAs other) then Op.fail .NotSameSize
  else
    forRange 0 self.rows fun row => do
      let element := (← other.getElement row) -ᶠ scalar
      setElement row element

/-- `Vector<f32>::sub_scalar_in_place` — linalg/src/vector.rs:419-428. -/
def subScalarInPlace (scalar : F) : Op LinalgError (Vec F) Unit := do
  let self ← Op.get
  forRange 0 self.rows fun row => do
    let self ← Op.get
    let element := (← self.getElement row) -ᶠ scalar
    setElement row element

/-- `Vector<f32>::sub_scalar_new` — linalg/src/vector.rs:431-444. -/
def subScalarNew (self : Vec F) (scalar : F) : Res LinalgError (Vec F) :=
  if !self.initialized then fail .NotInit
  else do
    let r ← exec new (init self.rows)
    exec r (subScalar self scalar)

/-- `Vector<f32>::calculate_norm` — linalg/src/vector.rs:447-463. -/
def calculateNorm (self : Vec F) : Res LinalgError F := do
  let sq ← foldRange 0 self.rows
    (fun row norm => do
      .ok (norm +ᶠ ((← self.getElement row) *ᶠ (← self.getElement row))))
    (lit 0)
  let norm := Scalar.sqrt sq
  if norm ≤ᶠ EPSILON then .ok (lit 0) else .ok norm

/-- `Vector<f32>::normalize` — linalg/src/vector.rs:466-481. -/
def normalize : Op LinalgError (Vec F) Unit := do
  let self ← Op.get
  let norm ← self.calculateNorm
  if norm >ᶠ EPSILON then
    forRange 0 self.rows fun row => do
      let self ← Op.get
      let element := (← self.getElement row) /ᶠ norm
      setElement row element
  else
    fill (lit 0)

/-- `Vector<f32>::mul_by_scalar` — linalg/src/vector.rs:484-499. -/
def mulByScalar (other : Vec F) (scalar : F) : Op LinalgError (Vec F) Unit := do
  let self ← Op.get
  if !(← self.isSameSizeAs other) then Op.fail .NotSameSize
  else
    forRange 0 self.rows fun row => do
      let element := (← other.getElement row) *ᶠ scalar
      setElement row element

/-- `Vector<f32>::mul_by_scalar_in_place` — linalg/src/vector.rs:502-511. -/
def mulByScalarInPlace (scalar : F) : Op LinalgError (Vec F) Unit := do
  let self ← Op.get
  forRange 0 self.rows fun row => do
    let self ← Op.get
    let element := (← self.getElement row) *ᶠ scalar
    setElement row element

/-- `Vector<f32>::mul_by_scalar_new` — linalg/src/vector.rs:514-527. -/
def mulByScalarNew (self : Vec F) (scalar : F) : Res LinalgError (Vec F) :=
  if !self.initialized then fail .NotInit
  else do
    let r ← exec new (init self.rows)
    exec r (mulByScalar self scalar)

/-- `Vector<f32>::dot_product` — linalg/src/vector.rs:530-545. -/
def dotProduct (self other : Vec F) : Res LinalgError F := do
  if !(← self.isSameSizeAs other) then fail .NotSameSize
  else
    foldRange 0 self.rows
      (fun row scalar => do
        .ok (scalar +ᶠ ((← self.getElement row) *ᶠ (← other.getElement row))))
      (lit 0)

/-- `Vector<f32>::slerp` — linalg/src/vector.rs:567-600. -/
def slerp (vect1 vect2 : Vec F) (alpha : F) : Op LinalgError (Vec F) Unit := do
  if !Utils.inRange alpha (lit 0) (lit 1) then Op.fail .InvalidAlpha
  else do
    let self ← Op.get
    if !(← self.isSameSizeAs vect1) then Op.fail .NotSameSize
    else if !(← self.isSameSizeAs vect2) then Op.fail .NotSameSize
    else do
      let scalar ← vect1.dotProduct vect2
      let theta := Scalar.acos scalar
      let v1 ← exec new (init (← self.getRows))
      let v1 ← exec v1 (copyFrom vect1)
      let v2 ← exec new (init (← self.getRows))
      let v2 ← exec v2 (copyFrom vect2)
      let v1 ← exec v1 (mulByScalarInPlace
        (Scalar.sin ((lit 1 -ᶠ alpha) *ᶠ theta) /ᶠ Scalar.sin theta))
      let v2 ← exec v2 (mulByScalarInPlace (Scalar.sin (alpha *ᶠ theta) /ᶠ Scalar.sin theta))
      add v1 v2

/-- `Vector<f32>::lerp` — linalg/src/vector.rs:603-632. -/
def lerp (vect1 vect2 : Vec F) (alpha : F) : Op LinalgError (Vec F) Unit := do
  if !Utils.inRange alpha (lit 0) (lit 1) then Op.fail .InvalidAlpha
  else do
    let self ← Op.get
    if !(← self.isSameSizeAs vect1) then Op.fail .NotSameSize
    else if !(← self.isSameSizeAs vect2) then Op.fail .NotSameSize
    else do
      let v1 ← exec new (init (← self.getRows))
      let v1 ← exec v1 (copyFrom vect1)
      let v2 ← exec new (init (← self.getRows))
      let v2 ← exec v2 (copyFrom vect2)
      let v1 ← exec v1 (mulByScalarInPlace (lit 1 -ᶠ alpha))
      let v2 ← exec v2 (mulByScalarInPlace alpha)
      add v1 v2

/-- `Vector<f32>::power_elements` — linalg/src/vector.rs:635-643. -/
def powerElements (exponent : F) : Op LinalgError (Vec F) Unit := do
  let self ← Op.get
  forRange 0 self.rows fun row => do
    let self ← Op.get
    let element := Scalar.pow (← self.getElement row) exponent
    setElement row element

end Vec
end Verif
