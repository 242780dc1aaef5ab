import Verif.Model.Gyrometer

/-
Model of `open_ahrs/src/ar.rs`.
-/

namespace Verif
open Scalar

/-- `struct AR` — open_ahrs/src/ar.rs:16-26. -/
structure AR (F : Type) where
  gyr : Gyrometer F
  attitude : Vec F
  ts : F
  method : NIM
  order : Nat
  initialized : Bool

namespace AR
variable {F : Type} [Scalar F]

/-- `AR::new` — open_ahrs/src/ar.rs:30-45. -/
def new : Res AhrsError (AR F) := do
  let gyr ← Gyrometer.new
  .ok { gyr := gyr, attitude := Vec.new, ts := lit (1 / 100), method := .ClosedForm, order := 1,
        initialized := false }

/-- A method on the field `gyr`. -/
def onGyr {α : Type} (m : Op AhrsError (Gyrometer F) α) : Op AhrsError (AR F) α :=
  Op.zoom AR.gyr (fun g s => { s with gyr := g }) m
/-- A linalg method on the field `attitude`. -/
def onAttitude {α : Type} (m : Op LinalgError (Vec F) α) : Op AhrsError (AR F) α :=
  fieldOp AR.attitude (fun a s => { s with attitude := a }) m

/-- `AR::init` — open_ahrs/src/ar.rs:48-72. -/
def init (qw qx qy qz : F) (gyrometerConfig : GyrometerConfig F) (ts : F) (method : NIM)
    (order : Nat) : Op AhrsError (AR F) Unit := do
  let self ← Op.get
  if self.initialized then Op.fail .ARFilterAlreadyInit
  else do
    onGyr (Gyrometer.init gyrometerConfig)
    onAttitude (Vec.init 4)
    onAttitude (Quat.fillq qw qx qy qz)
    Op.modify fun self =>
      { self with ts := ts, method := method, order := order, initialized := true }

/-- The Taylor loop — open_ahrs/src/ar.rs:123-132.  `omega` has already been scaled. -/
def taylorLoop (omega temp : Mat F) (order : Nat) : Res AhrsError (Mat F) :=
  foldRange 1 (order + 1)
    (fun n (temp : Mat F) => do
      let s ← liftL omega.duplicate
      let s ← liftL (exec s (Mat.powerElements (lit n)))
      let factor ← (Utils.factorial F n : Res AhrsError Nat)
      let s ← liftL (exec s (Mat.mulByScalarInPlace (lit 1 /ᶠ lit factor)))
      liftL (exec temp (Mat.addInPlace s)))
    temp

/-- The closed-form and Taylor branch — open_ahrs/src/ar.rs:115-141: the new quaternion components
from the previous attitude. -/
def matrixStep (temp omega : Mat F) (attitude : Vec F) (ts wNorm theta : F) (method : NIM)
    (order : Nat) : Res AhrsError (F × F × F × F) := do
  let temp ← (if method = .ClosedForm then do
      let temp ← liftL (exec temp (Mat.mulByScalarInPlace (Scalar.cos theta)))
      let omega ← liftL (exec omega (Mat.mulByScalarInPlace (Scalar.sin theta /ᶠ wNorm)))
      liftL (exec temp (Mat.addInPlace omega))
    else do
      let omega ← liftL (exec omega (Mat.mulByScalarInPlace (lit (1 / 2) *ᶠ ts)))
      taylorLoop omega temp order : Res AhrsError (Mat F))
  let attitude ← liftL (temp.mulNew (← liftL attitude.convertToMatrix))
  let qw ← liftL (attitude.getElement 0 0)
  let qx ← liftL (attitude.getElement 1 0)
  let qy ← liftL (attitude.getElement 2 0)
  let qz ← liftL (attitude.getElement 3 0)
  .ok (qw, qx, qy, qz)

/-- The Euler branch — open_ahrs/src/ar.rs:142-156. -/
def eulerStep (w attitude : Vec F) (ts p q r qw qx qy qz : F) :
    Res AhrsError (F × F × F × F) := do
  let w ← liftL (exec w (Vec.reinit 4))
  let w ← liftL (exec w (Quat.fillq (lit 0) p q r))
  let w ← liftL (exec w (Vec.mulByScalarInPlace (lit (1 / 2) *ᶠ ts)))
  let delta ← liftL (exec Vec.new (Vec.init 4))
  let delta ← liftL (exec delta (Quat.mul w attitude))
  let dw ← liftL (Quat.getQw delta)
  let dx ← liftL (Quat.getQx delta)
  let dy ← liftL (Quat.getQy delta)
  let dz ← liftL (Quat.getQz delta)
  .ok (qw +ᶠ dw, qx +ᶠ dx, qy +ᶠ dy, qz +ᶠ dz)

/-- `AR::update` — open_ahrs/src/ar.rs:75-169. -/
def update (gx gy gz : F) : Op AhrsError (AR F) Unit := do
  let self ← Op.get
  if !self.initialized then Op.fail .ARFilterNotInit
  else do
    let temp ← liftL (exec Mat.new (Mat.init 4 4))
    let temp ← liftL (exec temp Mat.fillIdentity)
    onGyr (Gyrometer.update gx gy gz)
    let self ← Op.get
    let p ← self.gyr.getX
    let q ← self.gyr.getY
    let r ← self.gyr.getZ
    let qw ← liftL (Quat.getQw self.attitude)
    let qx ← liftL (Quat.getQx self.attitude)
    let qy ← liftL (Quat.getQy self.attitude)
    let qz ← liftL (Quat.getQz self.attitude)
    let w ← liftL (exec Vec.new (Vec.init 3))
    let w ← liftL (exec w (Vec.setElement 0 p))
    let w ← liftL (exec w (Vec.setElement 1 q))
    let w ← liftL (exec w (Vec.setElement 2 r))
    let wNorm ← liftL w.calculateNorm
    if wNorm >ᶠ EPSILON then do
      let theta := wNorm *ᶠ self.ts /ᶠ lit 2
      let omega ← liftL (Ahrs.calculateOmegaMatrix p q r)
      let (qw, qx, qy, qz) ←
        (if self.method = .ClosedForm ∨ self.method = .TaylorSeries then
          matrixStep temp omega self.attitude self.ts wNorm theta self.method self.order
        else if self.method = .Euler then
          eulerStep w self.attitude self.ts p q r qw qx qy qz
        else fail .ARMethodError : Res AhrsError (F × F × F × F))
      onAttitude (Quat.fillq qw qx qy qz)
      onAttitude Vec.normalize
    else pure ()

/-- `AR::get_attitude` — open_ahrs/src/ar.rs:171-180. -/
def getAttitude (self : AR F) : Res AhrsError (Vec F) :=
  if !self.initialized then fail .ARFilterNotInit else liftL self.attitude.duplicate

end AR
end Verif
