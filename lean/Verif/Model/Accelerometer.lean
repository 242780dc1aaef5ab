import Verif.Model.AhrsCommon

/-
Model of `open_ahrs/src/accelerometer.rs`.
-/

namespace Verif
open Scalar

/-- `struct AccelerometerConfig` — open_ahrs/src/accelerometer.rs:9-27. -/
structure AccelerometerConfig (F : Type) where
  xScale : F
  yScale : F
  zScale : F
  xy : F
  xz : F
  yx : F
  yz : F
  zx : F
  zy : F
  xBias : F
  yBias : F
  zBias : F

/-- `AccelerometerConfig::default` — open_ahrs/src/accelerometer.rs:30-53. -/
def AccelerometerConfig.default {F : Type} [Scalar F] : AccelerometerConfig F where
  xScale := lit 1
  yScale := lit 1
  zScale := lit 1
  xy := lit 0
  xz := lit 0
  yx := lit 0
  yz := lit 0
  zx := lit 0
  zy := lit 0
  xBias := lit 0
  yBias := lit 0
  zBias := lit 0

/-- `struct Accelerometer` — open_ahrs/src/accelerometer.rs:56-75. -/
structure Accelerometer (F : Type) where
  correction : Mat F
  biases : Vec F
  raw : Vec F
  corrected : Vec F
  initialized : Bool

namespace Accelerometer
variable {F : Type} [Scalar F]

/-- `Accelerometer::new` — open_ahrs/src/accelerometer.rs:79-106. -/
def new : Res AhrsError (Accelerometer F) := do
  let correction ← liftL (exec Mat.new (Mat.init 3 3))
  let correction ← liftL (exec correction Mat.fillIdentity)
  let biases ← liftL (exec Vec.new (Vec.init 3))
  let biases ← liftL (exec biases (Vec.fill (lit 0)))
  let raw ← liftL (exec Vec.new (Vec.init 3))
  let raw ← liftL (exec raw (Vec.fill (lit 0)))
  let corrected ← liftL (exec Vec.new (Vec.init 3))
  let corrected ← liftL (exec corrected (Vec.fill (lit 0)))
  .ok { correction := correction, biases := biases, raw := raw, corrected := corrected,
        initialized := false }

/-- A method on the field `correction`. -/
def onCorrection {α : Type} (m : Op LinalgError (Mat F) α) : Op AhrsError (Accelerometer F) α :=
  fieldOp Accelerometer.correction (fun c s => { s with correction := c }) m
/-- A method on the field `biases`. -/
def onBiases {α : Type} (m : Op LinalgError (Vec F) α) : Op AhrsError (Accelerometer F) α :=
  fieldOp Accelerometer.biases (fun c s => { s with biases := c }) m
/-- A method on the field `raw`. -/
def onRaw {α : Type} (m : Op LinalgError (Vec F) α) : Op AhrsError (Accelerometer F) α :=
  fieldOp Accelerometer.raw (fun c s => { s with raw := c }) m
/-- A method on the field `corrected`. -/
def onCorrected {α : Type} (m : Op LinalgError (Vec F) α) : Op AhrsError (Accelerometer F) α :=
  fieldOp Accelerometer.corrected (fun c s => { s with corrected := c }) m

/-- `Accelerometer::private_set_config` — open_ahrs/src/accelerometer.rs:109-126. -/
def privateSetConfig (config : AccelerometerConfig F) : Op AhrsError (Accelerometer F) Unit := do
  onCorrection (Mat.setElement 0 0 config.xScale)
  onCorrection (Mat.setElement 1 1 config.yScale)
  onCorrection (Mat.setElement 2 2 config.zScale)
  onCorrection (Mat.setElement 1 0 config.xy)
  onCorrection (Mat.setElement 2 0 config.xz)
  onCorrection (Mat.setElement 0 1 config.yx)
  onCorrection (Mat.setElement 2 1 config.yz)
  onCorrection (Mat.setElement 0 2 config.zx)
  onCorrection (Mat.setElement 1 2 config.zy)
  onBiases (Vec.setElement 0 config.xBias)
  onBiases (Vec.setElement 1 config.yBias)
  onBiases (Vec.setElement 2 config.zBias)

/-- `Accelerometer::init` — open_ahrs/src/accelerometer.rs:129-139. -/
def init (config : AccelerometerConfig F) : Op AhrsError (Accelerometer F) Unit := do
  let self ← Op.get
  if self.initialized then Op.fail .AccAlreadyInit
  else do
    privateSetConfig config
    Op.modify fun self => { self with initialized := true }

/-- `Accelerometer::set_config` — open_ahrs/src/accelerometer.rs:142-152. -/
def setConfig (config : AccelerometerConfig F) : Op AhrsError (Accelerometer F) Unit := do
  let self ← Op.get
  if self.initialized then privateSetConfig config
  else Op.fail .AccNotInit

/-- `Accelerometer::get_config` — open_ahrs/src/accelerometer.rs:155-181.  It takes `&mut self` but writes
nothing. -/
def getConfig (self : Accelerometer F) : Res AhrsError (AccelerometerConfig F) :=
  if self.initialized then do
    let xScale ← liftL (self.correction.getElement 0 0)
    let yScale ← liftL (self.correction.getElement 1 1)
    let zScale ← liftL (self.correction.getElement 2 2)
    let xy ← liftL (self.correction.getElement 1 0)
    let xz ← liftL (self.correction.getElement 2 0)
    let yx ← liftL (self.correction.getElement 0 1)
    let yz ← liftL (self.correction.getElement 2 1)
    let zx ← liftL (self.correction.getElement 0 2)
    let zy ← liftL (self.correction.getElement 1 2)
    let xBias ← liftL (self.biases.getElement 0)
    let yBias ← liftL (self.biases.getElement 1)
    let zBias ← liftL (self.biases.getElement 2)
    .ok { xScale, yScale, zScale, xy, xz, yx, yz, zx, zy, xBias, yBias, zBias }
  else fail .AccNotInit

/-- `Accelerometer::correct` — open_ahrs/src/accelerometer.rs:184-191. -/
def correct : Op AhrsError (Accelerometer F) Unit := do
  let self ← Op.get
  onCorrected (Vec.sub self.raw self.biases)
  let self ← Op.get
  let m ← liftL self.corrected.convertToMatrix
  let m ← liftL (exec m (Mat.mul self.correction (← liftL m.duplicate)))
  onCorrected (m.getCol 0)

/-- `Accelerometer::update` — open_ahrs/src/accelerometer.rs:194-209. -/
def update (ax ay az : F) : Op AhrsError (Accelerometer F) Unit := do
  let self ← Op.get
  if !self.initialized then Op.fail .AccNotInit
  else do
    onRaw (Vec.setElement 0 ax)
    onRaw (Vec.setElement 1 ay)
    onRaw (Vec.setElement 2 az)
    correct

/-- `Accelerometer::get_x_acceleration` — open_ahrs/src/accelerometer.rs:212-222. -/
def getX (self : Accelerometer F) : Res AhrsError F :=
  if !self.initialized then fail .AccNotInit else liftL (self.corrected.getElement 0)

/-- `Accelerometer::get_y_acceleration` — open_ahrs/src/accelerometer.rs:225-235. -/
def getY (self : Accelerometer F) : Res AhrsError F :=
  if !self.initialized then fail .AccNotInit else liftL (self.corrected.getElement 1)

/-- `Accelerometer::get_z_acceleration` — open_ahrs/src/accelerometer.rs:238-248. -/
def getZ (self : Accelerometer F) : Res AhrsError F :=
  if !self.initialized then fail .AccNotInit else liftL (self.corrected.getElement 2)

end Accelerometer
end Verif
