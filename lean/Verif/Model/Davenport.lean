import Verif.Model.Accelerometer
import Verif.Model.Magnetometer

/-
Model of `open_ahrs/src/davenport.rs`.
-/

namespace Verif
open Scalar

/-- `struct Davenport` — open_ahrs/src/davenport.rs:18-32. -/
structure Davenport (F : Type) where
  acc : Accelerometer F
  mag : Magnetometer F
  attitude : Vec F
  w1 : F
  w2 : F
  g : F
  mdip : F
  initialized : Bool

namespace Davenport
variable {F : Type} [Scalar F]

/-- `Davenport::new` — open_ahrs/src/davenport.rs:36-55. -/
def new : Res AhrsError (Davenport F) := do
  let acc ← Accelerometer.new
  let mag ← Magnetometer.new
  .ok { acc := acc, mag := mag, attitude := Vec.new, w1 := lit 1, w2 := lit 1, g := lit (981 / 100),
        mdip := lit 0, initialized := false }

/-- A linalg method on the field `attitude`. -/
def onAttitude {α : Type} (m : Op LinalgError (Vec F) α) : Op AhrsError (Davenport F) α :=
  fieldOp Davenport.attitude (fun a s => { s with attitude := a }) m

/-- `Davenport::init` — open_ahrs/src/davenport.rs:58-91. -/
def init (w1 w2 : F) (g mdip : Option F) : Op AhrsError (Davenport F) Unit := do
  let self ← Op.get
  if self.initialized then Op.fail .DavenportFilterAlreadyInit
  else do
    onAttitude (Vec.init 4)
    onAttitude Quat.fillIdentity
    if !Utils.inRange w1 EPSILON (lit 1) || !Utils.inRange w2 EPSILON (lit 1) then
      Op.fail .InvalidDavenportWeights
    else
      Op.modify fun self =>
        { self with
          w1 := w1, w2 := w2, g := g.getD self.g, mdip := mdip.getD self.mdip,
          initialized := true }

/-- The computations that follow the two sensor updates — open_ahrs/src/davenport.rs:107-180.  They
write local variables only (the method is unfinished upstream), but every step can fail. -/
def updateLocals (self : Davenport F) : Res AhrsError Unit := do
  let ax ← self.acc.getX
  let ay ← self.acc.getY
  let az ← self.acc.getZ
  let aLocal ← liftL (exec Vec.new (Vec.init 3))
  let aLocal ← liftL (exec aLocal (Vec.setElement 0 ax))
  let aLocal ← liftL (exec aLocal (Vec.setElement 1 ay))
  let aLocal ← liftL (exec aLocal (Vec.setElement 2 az))
  let mx ← self.mag.getX
  let my ← self.mag.getY
  let mz ← self.mag.getZ
  let mLocal ← liftL (exec Vec.new (Vec.init 3))
  let mLocal ← liftL (exec mLocal (Vec.setElement 0 mx))
  let mLocal ← liftL (exec mLocal (Vec.setElement 1 my))
  let mLocal ← liftL (exec mLocal (Vec.setElement 2 mz))
  let gq ← liftL (exec Vec.new (Vec.init 3))
  let gq ← liftL (exec gq (Vec.setElement 0 (lit 0)))
  let gq ← liftL (exec gq (Vec.setElement 0 (lit 0)))
  let gq ← liftL (exec gq (Vec.setElement 0 (Scalar.neg self.g)))
  let mq ← liftL (exec Vec.new (Vec.init 3))
  let mq ← liftL (exec mq (Vec.setElement 0 (Scalar.cos self.mdip)))
  let mq ← liftL (exec mq (Vec.setElement 0 (lit 0)))
  let mq ← liftL (exec mq (Vec.setElement 0 (Scalar.neg (Scalar.sin self.mdip))))
  let b1 ← liftL (aLocal.outerProduct gq)
  let b2 ← liftL (mLocal.outerProduct mq)
  let b1 ← liftL (exec b1 (Mat.mulByScalarInPlace self.w1))
  let b2 ← liftL (exec b2 (Mat.mulByScalarInPlace self.w2))
  let b ← liftL (b1.addNew b2)
  let sigma ← liftL b.trace
  let z1 := (← liftL (b.getElement 1 2)) -ᶠ (← liftL (b.getElement 2 1))
  let z2 := (← liftL (b.getElement 2 0)) -ᶠ (← liftL (b.getElement 0 2))
  let z3 := (← liftL (b.getElement 0 1)) -ᶠ (← liftL (b.getElement 1 0))
  let z ← liftL (exec Vec.new (Vec.init 3))
  let z ← liftL (exec z (Vec.setElement 0 z1))
  let z ← liftL (exec z (Vec.setElement 1 z2))
  let _ ← liftL (exec z (Vec.setElement 2 z3))
  let k ← liftL (exec Mat.new (Mat.init 4 4))
  let k ← liftL (exec k (Mat.fill (lit 0)))
  let _ ← liftL (exec k (Mat.setElement 0 0 sigma))
  .ok ()

/-- `Davenport::update` — open_ahrs/src/davenport.rs:94-184. -/
def update (ax ay az mx my mz : F) : Op AhrsError (Davenport F) Unit := do
  let self ← Op.get
  if !self.initialized then Op.fail .DavenportFilterNotInit
  else do
    Op.zoom Davenport.acc (fun a s => { s with acc := a }) (Accelerometer.update ax ay az)
    Op.zoom Davenport.mag (fun a s => { s with mag := a }) (Magnetometer.update mx my mz)
    let self ← Op.get
    updateLocals self

end Davenport
end Verif
