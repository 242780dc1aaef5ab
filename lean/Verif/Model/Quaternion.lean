import Verif.Model.Decomp

/-
Model of `quaternion/src/quaternion.rs` (the trait `Quaternion` implemented by `Vector<f32>`).
-/

namespace Verif
open Scalar

namespace Quat
variable {F : Type} [Scalar F]

/-- `is_quaternion` — quaternion/src/quaternion.rs:82-89. -/
def isQuaternion (self : Vec F) : Res LinalgError Bool := do
  if (← self.getRows) ≠ 4 then .ok false else .ok true

/-- `is_real` — quaternion/src/quaternion.rs:93-107. -/
def isReal (self : Vec F) : Res LinalgError Bool := do
  if !(← isQuaternion self) then fail .InvalidSize
  else allRange 1 4 fun row => do allcloseL (← self.getElement row) (lit 0) EPSILON

/-- `is_pure` — quaternion/src/quaternion.rs:111-123. -/
def isPure (self : Vec F) : Res LinalgError Bool := do
  if !(← isQuaternion self) then fail .InvalidSize
  else if !(← allcloseL (← self.getElement 0) (lit 0) EPSILON) then .ok false
  else .ok true

/-- `is_versor` — quaternion/src/quaternion.rs:126-138. -/
def isVersor (self : Vec F) : Res LinalgError Bool := do
  if !(← isQuaternion self) then fail .InvalidSize
  else if !(← allcloseL (← self.calculateNorm) (lit 1) EPSILON) then .ok false
  else .ok true

/-- `is_identity` — quaternion/src/quaternion.rs:142-161. -/
def isIdentity (self : Vec F) : Res LinalgError Bool := do
  if !(← isQuaternion self) then fail .InvalidSize
  else if !(← allcloseL (← self.getElement 0) (lit 1) EPSILON) then .ok false
  else allRange 1 4 fun row => do allcloseL (← self.getElement row) (lit 0) EPSILON

/-- The body of `set_qw`, `set_qx`, `set_qy`, `set_qz` — quaternion/src/quaternion.rs:164-173,
186-195, 208-217, 230-239 — with the component number as a parameter. -/
def setComponent (i : Nat) (value : F) : Op LinalgError (Vec F) Unit := do
  let self ← Op.get
  if !(← isQuaternion self) then Op.fail .InvalidSize
  else Vec.setElement i value

/-- The body of `get_qw`, `get_qx`, `get_qy`, `get_qz` — quaternion/src/quaternion.rs:176-183,
198-205, 220-227, 242-249 — with the component number as a parameter. -/
def getComponent (self : Vec F) (i : Nat) : Res LinalgError F := do
  if !(← isQuaternion self) then fail .InvalidSize
  else self.getElement i

/-- `set_qw` — quaternion/src/quaternion.rs:164-173. -/
def setQw (q : F) : Op LinalgError (Vec F) Unit := setComponent 0 q
/-- `get_qw` — quaternion/src/quaternion.rs:176-183. -/
def getQw (self : Vec F) : Res LinalgError F := getComponent self 0
/-- `set_qx` — quaternion/src/quaternion.rs:186-195. -/
def setQx (q : F) : Op LinalgError (Vec F) Unit := setComponent 1 q
/-- `get_qx` — quaternion/src/quaternion.rs:198-205. -/
def getQx (self : Vec F) : Res LinalgError F := getComponent self 1
/-- `set_qy` — quaternion/src/quaternion.rs:208-217. -/
def setQy (q : F) : Op LinalgError (Vec F) Unit := setComponent 2 q
/-- `get_qy` — quaternion/src/quaternion.rs:220-227. -/
def getQy (self : Vec F) : Res LinalgError F := getComponent self 2
/-- `set_qz` — quaternion/src/quaternion.rs:230-239. -/
def setQz (q : F) : Op LinalgError (Vec F) Unit := setComponent 3 q
/-- `get_qz` — quaternion/src/quaternion.rs:242-249. -/
def getQz (self : Vec F) : Res LinalgError F := getComponent self 3

/-- `get_vector_part` — quaternion/src/quaternion.rs:252-270. -/
def getVectorPart (self : Vec F) : Res LinalgError (Vec F) := do
  if !(← isQuaternion self) then fail .InvalidSize
  else do
    let qv ← exec Vec.new (Vec.init 3)
    let x ← self.getElement 1
    let y ← self.getElement 2
    let z ← self.getElement 3
    let qv ← exec qv (Vec.setElement 0 x)
    let qv ← exec qv (Vec.setElement 1 y)
    exec qv (Vec.setElement 2 z)

/-- The four stores that end `fillq`, `mul`, `hughes`, `chiaverini` and `sarabandi`, e.g.
quaternion/src/quaternion.rs:280-283. -/
def storeAll (qw qx qy qz : F) : Op LinalgError (Vec F) Unit := do
  Vec.setElement 0 qw
  Vec.setElement 1 qx
  Vec.setElement 2 qy
  Vec.setElement 3 qz

/-- `fillq` — quaternion/src/quaternion.rs:273-286. -/
def fillq (qw qx qy qz : F) : Op LinalgError (Vec F) Unit := do
  let self ← Op.get
  if !(← isQuaternion self) then Op.fail .InvalidSize
  else storeAll qw qx qy qz

/-- `conjugate` — quaternion/src/quaternion.rs:289-306. -/
def conjugate : Op LinalgError (Vec F) Unit := do
  let self ← Op.get
  if !(← isQuaternion self) then Op.fail .InvalidSize
  else do
    let qx ← self.getElement 1
    let qy ← self.getElement 2
    let qz ← self.getElement 3
    Vec.setElement 1 (Scalar.neg qx)
    Vec.setElement 2 (Scalar.neg qy)
    Vec.setElement 3 (Scalar.neg qz)

/-- `conjugate_new` — quaternion/src/quaternion.rs:308-313. -/
def conjugateNew (self : Vec F) : Res LinalgError (Vec F) := do
  let conj ← self.duplicate
  exec conj conjugate

/-- `mul` — quaternion/src/quaternion.rs:316-347. -/
def mul (quat1 quat2 : Vec F) : Op LinalgError (Vec F) Unit := do
  let self ← Op.get
  if !(← isQuaternion self) then Op.fail .InvalidSize
  else if !(← isQuaternion quat1) then Op.fail .InvalidSize
  else if !(← isQuaternion quat2) then Op.fail .InvalidSize
  else do
    let qw1 ← quat1.getElement 0
    let qx1 ← quat1.getElement 1
    let qy1 ← quat1.getElement 2
    let qz1 ← quat1.getElement 3
    let qw2 ← quat2.getElement 0
    let qx2 ← quat2.getElement 1
    let qy2 ← quat2.getElement 2
    let qz2 ← quat2.getElement 3
    let qw := qw1 *ᶠ qw2 -ᶠ qx1 *ᶠ qx2 -ᶠ qy1 *ᶠ qy2 -ᶠ qz1 *ᶠ qz2
    let qx := qw1 *ᶠ qx2 +ᶠ qx1 *ᶠ qw2 -ᶠ qz1 *ᶠ qy2 +ᶠ qy1 *ᶠ qz2
    let qy := qw1 *ᶠ qy2 +ᶠ qz1 *ᶠ qx2 +ᶠ qw2 *ᶠ qy1 -ᶠ qx1 *ᶠ qz2
    let qz := qw1 *ᶠ qz2 -ᶠ qy1 *ᶠ qx2 +ᶠ qx1 *ᶠ qy2 +ᶠ qw2 *ᶠ qz1
    storeAll qw qx qy qz

/-- `mul_new` — quaternion/src/quaternion.rs:349-383. -/
def mulNew (self other : Vec F) : Res LinalgError (Vec F) := do
  if !(← isQuaternion self) then fail .InvalidSize
  else if !(← isQuaternion other) then fail .InvalidSize
  else do
    let qw1 ← self.getElement 0
    let qx1 ← self.getElement 1
    let qy1 ← self.getElement 2
    let qz1 ← self.getElement 3
    let qw2 ← other.getElement 0
    let qx2 ← other.getElement 1
    let qy2 ← other.getElement 2
    let qz2 ← other.getElement 3
    let qw := qw1 *ᶠ qw2 -ᶠ qx1 *ᶠ qx2 -ᶠ qy1 *ᶠ qy2 -ᶠ qz1 *ᶠ qz2
    let qx := qw1 *ᶠ qx2 +ᶠ qx1 *ᶠ qw2 -ᶠ qz1 *ᶠ qy2 +ᶠ qy1 *ᶠ qz2
    let qy := qw1 *ᶠ qy2 +ᶠ qz1 *ᶠ qx2 +ᶠ qw2 *ᶠ qy1 -ᶠ qx1 *ᶠ qz2
    let qz := qw1 *ᶠ qz2 -ᶠ qy1 *ᶠ qx2 +ᶠ qx1 *ᶠ qy2 +ᶠ qw2 *ᶠ qz1
    let r ← exec Vec.new (Vec.init 4)
    exec r (storeAll qw qx qy qz)

/-- `fill_identity` — quaternion/src/quaternion.rs:386-390. -/
def fillIdentity : Op LinalgError (Vec F) Unit := fillq (lit 1) (lit 0) (lit 0) (lit 0)

/-- `invert` — quaternion/src/quaternion.rs:393-404. -/
def invert : Op LinalgError (Vec F) Unit := do
  let self ← Op.get
  let norm ← self.calculateNorm
  conjugate
  if norm >ᶠ EPSILON then Vec.mulByScalarInPlace (lit 1 /ᶠ (norm *ᶠ norm))
  else fillq (lit 0) (lit 0) (lit 0) (lit 0)

/-- `convert_to_dcm` — quaternion/src/quaternion.rs:407-442. -/
def convertToDcm (self : Vec F) : Res LinalgError (Mat F) := do
  let dcm ← exec Mat.new (Mat.init 3 3)
  let qw ← getQw self
  let qx ← getQx self
  let qy ← getQy self
  let qz ← getQz self
  let dcm ← exec dcm (Mat.setElement 0 0
    (qw *ᶠ qw +ᶠ qx *ᶠ qx -ᶠ qy *ᶠ qy -ᶠ qz *ᶠ qz))
  let dcm ← exec dcm (Mat.setElement 0 1 (lit 2 *ᶠ (qx *ᶠ qy -ᶠ qw *ᶠ qz)))
  let dcm ← exec dcm (Mat.setElement 0 2 (lit 2 *ᶠ (qx *ᶠ qz +ᶠ qw *ᶠ qy)))
  let dcm ← exec dcm (Mat.setElement 1 0 (lit 2 *ᶠ (qx *ᶠ qy +ᶠ qw *ᶠ qz)))
  let dcm ← exec dcm (Mat.setElement 1 1 (lit 1 -ᶠ lit 2 *ᶠ (qx *ᶠ qx +ᶠ qz *ᶠ qz)))
  let dcm ← exec dcm (Mat.setElement 1 2 (lit 2 *ᶠ (qy *ᶠ qz -ᶠ qw *ᶠ qx)))
  let dcm ← exec dcm (Mat.setElement 2 0 (lit 2 *ᶠ (qx *ᶠ qz -ᶠ qw *ᶠ qy)))
  let dcm ← exec dcm (Mat.setElement 2 1 (lit 2 *ᶠ (qw *ᶠ qx +ᶠ qy *ᶠ qz)))
  exec dcm (Mat.setElement 2 2 (lit 1 -ᶠ lit 2 *ᶠ (qx *ᶠ qx +ᶠ qy *ᶠ qy)))

/-- The part shared by `exp` and `exp_new` — quaternion/src/quaternion.rs:461-466 and 491-496:
returns `qw`, the norm of the vector part, and the scaled direction. -/
def expParts (self : Vec F) : Res LinalgError (F × F × Vec F) := do
  let qw ← self.getElement 0
  let qv ← getVectorPart self
  let qvNorm ← qv.calculateNorm
  let qv ← exec qv Vec.normalize
  let qv ← exec qv (Vec.mulByScalarInPlace (Scalar.sin qvNorm))
  .ok (qw, qvNorm, qv)

/-- `exp` — quaternion/src/quaternion.rs:453-478.  `is_pure` is evaluated on the already
overwritten quaternion. -/
def exp : Op LinalgError (Vec F) Unit := do
  let self ← Op.get
  if (← isReal self) then fillq (lit 1) (lit 0) (lit 0) (lit 0)
  else do
    let (qw, qvNorm, qv) ← expParts self
    fillq (Scalar.cos qvNorm) (← qv.getElement 0) (← qv.getElement 1) (← qv.getElement 2)
    let self ← Op.get
    if (← isPure self) then pure ()
    else Vec.mulByScalarInPlace (Scalar.pow E qw)

/-- `exp_new` — quaternion/src/quaternion.rs:481-508. -/
def expNew (self : Vec F) : Res LinalgError (Vec F) := do
  let qExp ← self.duplicate
  if (← isReal self) then exec qExp (fillq (lit 1) (lit 0) (lit 0) (lit 0))
  else do
    let (qw, qvNorm, qv) ← expParts self
    let qExp ← exec qExp (fillq (Scalar.cos qvNorm) (← qv.getElement 0) (← qv.getElement 1)
      (← qv.getElement 2))
    if (← isPure self) then .ok qExp
    else exec qExp (Vec.mulByScalarInPlace (Scalar.pow E qw))

/-- `hughes` — quaternion/src/quaternion.rs:513-573. -/
def hughes (dcm : Mat F) : Op LinalgError (Vec F) Unit := do
  let self ← Op.get
  if !(← isQuaternion self) then Op.fail .InvalidSize
  else do
    let trace ← dcm.trace
    let trace := Utils.clip trace (lit (-1)) (lit 3)
    if (← allcloseL trace (lit 3) EPSILON) then fillq (lit 1) (lit 0) (lit 0) (lit 0)
    else do
      let n := lit (1 / 2) *ᶠ Scalar.sqrt (lit 1 +ᶠ trace)
      if (← allcloseL n (lit 0) EPSILON) then do
        let e ← dcm.diag none
        let e ← exec e (Vec.addScalarInPlace (lit 1))
        let e ← exec e (Vec.mulByScalarInPlace (lit (1 / 2)))
        let e ← exec e (Vec.powerElements (lit (1 / 2)))
        let qx ← e.getElement 0
        let qy ← e.getElement 1
        let qz ← e.getElement 2
        storeAll n qx qy qz
      else do
        let qx := lit (1 / 4) *ᶠ ((← dcm.getElement 1 2) -ᶠ (← dcm.getElement 2 1)) /ᶠ n
        let qy := lit (1 / 4) *ᶠ ((← dcm.getElement 2 0) -ᶠ (← dcm.getElement 0 2)) /ᶠ n
        let qz := lit (1 / 4) *ᶠ ((← dcm.getElement 0 1) -ᶠ (← dcm.getElement 1 0)) /ᶠ n
        storeAll n qx qy qz

/-- `chiaverini` — quaternion/src/quaternion.rs:578-622. -/
def chiaverini (dcm : Mat F) : Op LinalgError (Vec F) Unit := do
  let self ← Op.get
  if !(← isQuaternion self) then Op.fail .InvalidSize
  else do
    let trace ← dcm.trace
    let trace := Utils.clip trace (lit (-1)) (lit 3)
    let dcm32 ← dcm.getElement 2 1
    let dcm23 ← dcm.getElement 1 2
    let dcm11 ← dcm.getElement 0 0
    let dcm22 ← dcm.getElement 1 1
    let dcm33 ← dcm.getElement 2 2
    let dcm13 ← dcm.getElement 0 2
    let dcm31 ← dcm.getElement 2 0
    let dcm21 ← dcm.getElement 1 0
    let dcm12 ← dcm.getElement 0 1
    let qw := lit (1 / 2) *ᶠ Scalar.sqrt (trace +ᶠ lit 1)
    let qx := lit (1 / 2) *ᶠ Utils.sign (dcm32 -ᶠ dcm23) *ᶠ
      Scalar.sqrt (Utils.clip (dcm11 -ᶠ dcm22 -ᶠ dcm33) (lit (-1)) (lit 1) +ᶠ lit 1)
    let qy := lit (1 / 2) *ᶠ Utils.sign (dcm13 -ᶠ dcm31) *ᶠ
      Scalar.sqrt (Utils.clip (dcm22 -ᶠ dcm33 -ᶠ dcm11) (lit (-1)) (lit 1) +ᶠ lit 1)
    let qz := lit (1 / 2) *ᶠ Utils.sign (dcm21 -ᶠ dcm12) *ᶠ
      Scalar.sqrt (Utils.clip (dcm33 -ᶠ dcm11 -ᶠ dcm22) (lit (-1)) (lit 1) +ᶠ lit 1)
    storeAll qw qx qy qz
    Vec.normalize

/-- `if d > eta { 0.5*sqrt(1+d) } else { 0.5*sqrt(nominator/(3-d)) }`, the shape of the four
component computations of `sarabandi` — quaternion/src/quaternion.rs:663-670, 676-683, 689-696,
702-709. -/
def sarabandiComponent (eta d nominator : F) : F :=
  if d >ᶠ eta then lit (1 / 2) *ᶠ Scalar.sqrt (lit 1 +ᶠ d)
  else lit (1 / 2) *ᶠ Scalar.sqrt (nominator /ᶠ (lit 3 -ᶠ d))

/-- `sarabandi` — quaternion/src/quaternion.rs:627-723. -/
def sarabandi (dcm : Mat F) (eta : Option F) : Op LinalgError (Vec F) Unit := do
  let self ← Op.get
  if !(← isQuaternion self) then Op.fail .InvalidSize
  else do
    let eta := eta.getD (lit 0)
    let r11 ← dcm.getElement 0 0
    let r12 ← dcm.getElement 0 1
    let r13 ← dcm.getElement 0 2
    let r21 ← dcm.getElement 1 0
    let r22 ← dcm.getElement 1 1
    let r23 ← dcm.getElement 1 2
    let r31 ← dcm.getElement 2 0
    let r32 ← dcm.getElement 2 1
    let r33 ← dcm.getElement 2 2
    let qw := sarabandiComponent eta (r11 +ᶠ r22 +ᶠ r33)
      ((r32 -ᶠ r23) *ᶠ (r32 -ᶠ r23) +ᶠ (r13 -ᶠ r31) *ᶠ (r13 -ᶠ r31) +ᶠ
        (r21 -ᶠ r12) *ᶠ (r21 -ᶠ r12))
    let qx := sarabandiComponent eta (r11 -ᶠ r22 -ᶠ r33)
      ((r32 -ᶠ r23) *ᶠ (r32 -ᶠ r23) +ᶠ (r12 +ᶠ r21) *ᶠ (r12 +ᶠ r21) +ᶠ
        (r31 +ᶠ r13) *ᶠ (r31 +ᶠ r13))
    let qy := sarabandiComponent eta (Scalar.neg r11 +ᶠ r22 -ᶠ r33)
      ((r13 -ᶠ r31) *ᶠ (r13 -ᶠ r31) +ᶠ (r12 +ᶠ r21) *ᶠ (r12 +ᶠ r21) +ᶠ
        (r23 +ᶠ r32) *ᶠ (r23 +ᶠ r32))
    let qz := sarabandiComponent eta (Scalar.neg r11 -ᶠ r22 +ᶠ r33)
      ((r21 -ᶠ r12) *ᶠ (r21 -ᶠ r12) +ᶠ (r31 +ᶠ r13) *ᶠ (r31 +ᶠ r13) +ᶠ
        (r23 +ᶠ r32) *ᶠ (r23 +ᶠ r32))
    storeAll qw qx qy qz

/-- `convert_to_euler` — quaternion/src/quaternion.rs:727-752. -/
def convertToEuler (self : Vec F) : Res LinalgError (F × F × F) := do
  let qw ← getQw self
  let qx ← getQx self
  let qy ← getQy self
  let qz ← getQz self
  let phi := Scalar.atan2 (lit 2 *ᶠ (qw *ᶠ qx +ᶠ qy *ᶠ qz))
    (lit 1 -ᶠ lit 2 *ᶠ (qx *ᶠ qx +ᶠ qy *ᶠ qy))
  let theta := Scalar.asin (lit 2 *ᶠ (qw *ᶠ qy -ᶠ qz *ᶠ qx))
  let psi := Scalar.atan2 (lit 2 *ᶠ (qw *ᶠ qz +ᶠ qx *ᶠ qy))
    (lit 1 -ᶠ lit 2 *ᶠ (qy *ᶠ qy +ᶠ qz *ᶠ qz))
  .ok (phi, theta, psi)

/-- `rotate` — quaternion/src/quaternion.rs:764-787. -/
def rotate (self vect : Vec F) : Res LinalgError (Vec F) := do
  if (← vect.getRows) ≠ 3 then fail .InvalidSize
  else do
    let dcm ← convertToDcm self
    let rotated ← dcm.mulNew (← vect.convertToMatrix)
    rotated.colToVector 0

/-- `rotate_in_place` — quaternion/src/quaternion.rs:789-800.  The mutable object is `vect`. -/
def rotateInPlace (self : Vec F) : Op LinalgError (Vec F) Unit := do
  let vect ← Op.get
  if (← vect.getRows) ≠ 3 then Op.fail .InvalidSize
  else do
    let dcm ← convertToDcm self
    let temp ← dcm.mulNew (← vect.convertToMatrix)
    temp.getCol 0

end Quat
end Verif
