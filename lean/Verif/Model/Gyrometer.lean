import Verif.Model.AhrsCommon

/-
Model of `open_ahrs/src/gyrometer.rs`.
-/

namespace Verif
open Scalar

/-- `struct GyrometerConfig` — open_ahrs/src/gyrometer.rs:9-27. -/
structure GyrometerConfig (F : Type) where
  xScale : F
  yScale : F
  zScale : F
  xy : F
  xz : F
  yx : F
  yz : F
  zx : F
  zy : F
  xBias : F
  yBias : F
  zBias : F

/-- `GyrometerConfig::default` — open_ahrs/src/gyrometer.rs:30-53. -/
def GyrometerConfig.default {F : Type} [Scalar F] : GyrometerConfig F where
  xScale := lit 1
  yScale := lit 1
  zScale := lit 1
  xy := lit 0
  xz := lit 0
  yx := lit 0
  yz := lit 0
  zx := lit 0
  zy := lit 0
  xBias := lit 0
  yBias := lit 0
  zBias := lit 0

/-- `struct Gyrometer` — open_ahrs/src/gyrometer.rs:56-75. -/
structure Gyrometer (F : Type) where
  correction : Mat F
  biases : Vec F
  raw : Vec F
  corrected : Vec F
  initialized : Bool

namespace Gyrometer
variable {F : Type} [Scalar F]

/-- `Gyrometer::new` — open_ahrs/src/gyrometer.rs:79-106. -/
def new : Res AhrsError (Gyrometer F) := do
  let correction ← liftL (exec Mat.new (Mat.init 3 3))
  let correction ← liftL (exec correction Mat.fillIdentity)
  let biases ← liftL (exec Vec.new (Vec.init 3))
  let biases ← liftL (exec biases (Vec.fill (lit 0)))
  let raw ← liftL (exec Vec.new (Vec.init 3))
  let raw ← liftL (exec raw (Vec.fill (lit 0)))
  let corrected ← liftL (exec Vec.new (Vec.init 3))
  let corrected ← liftL (exec corrected (Vec.fill (lit 0)))
  .ok { correction := correction, biases := biases, raw := raw, corrected := corrected,
        initialized := false }

/-- A method on the field `correction`. -/
def onCorrection {α : Type} (m : Op LinalgError (Mat F) α) : Op AhrsError (Gyrometer F) α :=
  fieldOp Gyrometer.correction (fun c s => { s with correction := c }) m
/-- A method on the field `biases`. -/
def onBiases {α : Type} (m : Op LinalgError (Vec F) α) : Op AhrsError (Gyrometer F) α :=
  fieldOp Gyrometer.biases (fun c s => { s with biases := c }) m
/-- A method on the field `raw`. -/
def onRaw {α : Type} (m : Op LinalgError (Vec F) α) : Op AhrsError (Gyrometer F) α :=
  fieldOp Gyrometer.raw (fun c s => { s with raw := c }) m
/-- A method on the field `corrected`. -/
def onCorrected {α : Type} (m : Op LinalgError (Vec F) α) : Op AhrsError (Gyrometer F) α :=
  fieldOp Gyrometer.corrected (fun c s => { s with corrected := c }) m

/-- `Gyrometer::private_set_config` — open_ahrs/src/gyrometer.rs:109-126. -/
def privateSetConfig (config : GyrometerConfig F) : Op AhrsError (Gyrometer F) Unit := do
  onCorrection (Mat.setElement 0 0 config.xScale)
  onCorrection (Mat.setElement 1 1 config.yScale)
  onCorrection (Mat.setElement 2 2 config.zScale)
  onCorrection (Mat.setElement 1 0 config.xy)
  onCorrection (Mat.setElement 2 0 config.xz)
  onCorrection (Mat.setElement 0 1 config.yx)
  onCorrection (Mat.setElement 2 1 config.yz)
  onCorrection (Mat.setElement 0 2 config.zx)
  onCorrection (Mat.setElement 1 2 config.zy)
  onBiases (Vec.setElement 0 config.xBias)
  onBiases (Vec.setElement 1 config.yBias)
  onBiases (Vec.setElement 2 config.zBias)

/-- `Gyrometer::init` — open_ahrs/src/gyrometer.rs:129-139. -/
def init (config : GyrometerConfig F) : Op AhrsError (Gyrometer F) Unit := do
  let self ← Op.get
  if self.initialized then Op.fail .GyrAlreadyInit
  else do
    privateSetConfig config
    Op.modify fun self => { self with initialized := true }

/-- `Gyrometer::set_config` — open_ahrs/src/gyrometer.rs:142-152. -/
def setConfig (config : GyrometerConfig F) : Op AhrsError (Gyrometer F) Unit := do
  let self ← Op.get
  if self.initialized then privateSetConfig config
  else Op.fail .GyrNotInit

/-- `Gyrometer::get_config` — open_ahrs/src/gyrometer.rs:155-181.  It takes `&mut self` but writes
nothing. -/
def getConfig (self : Gyrometer F) : Res AhrsError (GyrometerConfig F) :=
  if self.initialized then do
    let xScale ← liftL (self.correction.getElement 0 0)
    let yScale ← liftL (self.correction.getElement 1 1)
    let zScale ← liftL (self.correction.getElement 2 2)
    let xy ← liftL (self.correction.getElement 1 0)
    let xz ← liftL (self.correction.getElement 2 0)
    let yx ← liftL (self.correction.getElement 0 1)
    let yz ← liftL (self.correction.getElement 2 1)
    let zx ← liftL (self.correction.getElement 0 2)
    let zy ← liftL (self.correction.getElement 1 2)
    let xBias ← liftL (self.biases.getElement 0)
    let yBias ← liftL (self.biases.getElement 1)
    let zBias ← liftL (self.biases.getElement 2)
    .ok { xScale, yScale, zScale, xy, xz, yx, yz, zx, zy, xBias, yBias, zBias }
  else fail .GyrNotInit

/-- `Gyrometer::correct` — open_ahrs/src/gyrometer.rs:184-191. -/
def correct : Op AhrsError (Gyrometer F) Unit := do
  let self ← Op.get
  onCorrected (Vec.sub self.raw self.biases)
  let self ← Op.get
  let m ← liftL self.corrected.convertToMatrix
  let m ← liftL (exec m (Mat.mul self.correction (← liftL m.duplicate)))
  onCorrected (m.getCol 0)

/-- `Gyrometer::update` — open_ahrs/src/gyrometer.rs:194-209. -/
def update (gx gy gz : F) : Op AhrsError (Gyrometer F) Unit := do
  let self ← Op.get
  if !self.initialized then Op.fail .GyrNotInit
  else do
    onRaw (Vec.setElement 0 gx)
    onRaw (Vec.setElement 1 gy)
    onRaw (Vec.setElement 2 gz)
    correct

/-- `Gyrometer::get_x_angular_rate` — open_ahrs/src/gyrometer.rs:212-222. -/
def getX (self : Gyrometer F) : Res AhrsError F :=
  if !self.initialized then fail .GyrNotInit else liftL (self.corrected.getElement 0)

/-- `Gyrometer::get_y_angular_rate` — open_ahrs/src/gyrometer.rs:225-235. -/
def getY (self : Gyrometer F) : Res AhrsError F :=
  if !self.initialized then fail .GyrNotInit else liftL (self.corrected.getElement 1)

/-- `Gyrometer::get_z_angular_rate` — open_ahrs/src/gyrometer.rs:238-248. -/
def getZ (self : Gyrometer F) : Res AhrsError F :=
  if !self.initialized then fail .GyrNotInit else liftL (self.corrected.getElement 2)

end Gyrometer
end Verif
