import Verif.Model.AhrsCommon

/-
Model of `open_ahrs/src/magnetometer.rs`.
-/

namespace Verif
open Scalar

/-- `struct MagnetometerConfig` — open_ahrs/src/magnetometer.rs:9-27. -/
structure MagnetometerConfig (F : Type) where
  xScale : F
  yScale : F
  zScale : F
  xy : F
  xz : F
  yx : F
  yz : F
  zx : F
  zy : F
  xBias : F
  yBias : F
  zBias : F

/-- `MagnetometerConfig::default` — open_ahrs/src/magnetometer.rs:30-53. -/
def MagnetometerConfig.default {F : Type} [Scalar F] : MagnetometerConfig F where
  xScale := lit 1
  yScale := lit 1
  zScale := lit 1
  xy := lit 0
  xz := lit 0
  yx := lit 0
  yz := lit 0
  zx := lit 0
  zy := lit 0
  xBias := lit 0
  yBias := lit 0
  zBias := lit 0

/-- `struct Magnetometer` — open_ahrs/src/magnetometer.rs:56-82. -/
structure Magnetometer (F : Type) where
  correction : Mat F
  biases : Vec F
  raw : Vec F
  corrected : Vec F
  initialized : Bool

namespace Magnetometer
variable {F : Type} [Scalar F]

/-- `Magnetometer::new` — open_ahrs/src/magnetometer.rs:86-113. -/
def new : Res AhrsError (Magnetometer F) := do
  let correction ← liftL (exec Mat.new (Mat.init 3 3))
  let correction ← liftL (exec correction Mat.fillIdentity)
  let biases ← liftL (exec Vec.new (Vec.init 3))
  let biases ← liftL (exec biases (Vec.fill (lit 0)))
  let raw ← liftL (exec Vec.new (Vec.init 3))
  let raw ← liftL (exec raw (Vec.fill (lit 0)))
  let corrected ← liftL (exec Vec.new (Vec.init 3))
  let corrected ← liftL (exec corrected (Vec.fill (lit 0)))
  .ok { correction := correction, biases := biases, raw := raw, corrected := corrected,
        initialized := false }

/-- A method on the field `correction`. -/
def onCorrection {α : Type} (m : Op LinalgError (Mat F) α) : Op AhrsError (Magnetometer F) α :=
  fieldOp Magnetometer.correction (fun c s => { s with correction := c }) m
/-- A method on the field `biases`. -/
def onBiases {α : Type} (m : Op LinalgError (Vec F) α) : Op AhrsError (Magnetometer F) α :=
  fieldOp Magnetometer.biases (fun c s => { s with biases := c }) m
/-- A method on the field `raw`. -/
def onRaw {α : Type} (m : Op LinalgError (Vec F) α) : Op AhrsError (Magnetometer F) α :=
  fieldOp Magnetometer.raw (fun c s => { s with raw := c }) m
/-- A method on the field `corrected`. -/
def onCorrected {α : Type} (m : Op LinalgError (Vec F) α) : Op AhrsError (Magnetometer F) α :=
  fieldOp Magnetometer.corrected (fun c s => { s with corrected := c }) m

/-- `Magnetometer::private_set_config` — open_ahrs/src/magnetometer.rs:116-133. -/
def privateSetConfig (config : MagnetometerConfig F) : Op AhrsError (Magnetometer F) Unit := do
  onCorrection (Mat.setElement 0 0 config.xScale)
  onCorrection (Mat.setElement 1 1 config.yScale)
  onCorrection (Mat.setElement 2 2 config.zScale)
  onCorrection (Mat.setElement 0 1 config.xy)
  onCorrection (Mat.setElement 1 0 config.xz)
  onCorrection (Mat.setElement 0 2 config.yx)
  onCorrection (Mat.setElement 2 0 config.yz)
  onCorrection (Mat.setElement 1 2 config.zx)
  onCorrection (Mat.setElement 2 1 config.zy)
  onBiases (Vec.setElement 0 config.xBias)
  onBiases (Vec.setElement 1 config.yBias)
  onBiases (Vec.setElement 2 config.zBias)

/-- `Magnetometer::init` — open_ahrs/src/magnetometer.rs:136-146. -/
def init (config : MagnetometerConfig F) : Op AhrsError (Magnetometer F) Unit := do
  let self ← Op.get
  if self.initialized then Op.fail .MagAlreadyInit
  else do
    privateSetConfig config
    Op.modify fun self => { self with initialized := true }

/-- `Magnetometer::set_config` — open_ahrs/src/magnetometer.rs:149-159. -/
def setConfig (config : MagnetometerConfig F) : Op AhrsError (Magnetometer F) Unit := do
  let self ← Op.get
  if self.initialized then privateSetConfig config
  else Op.fail .MagNotInit

/-- `Magnetometer::get_config` — open_ahrs/src/magnetometer.rs:162-188.  It takes `&mut self` but writes
nothing. -/
def getConfig (self : Magnetometer F) : Res AhrsError (MagnetometerConfig F) :=
  if self.initialized then do
    let xScale ← liftL (self.correction.getElement 0 0)
    let yScale ← liftL (self.correction.getElement 1 1)
    let zScale ← liftL (self.correction.getElement 2 2)
    let xy ← liftL (self.correction.getElement 0 1)
    let xz ← liftL (self.correction.getElement 1 0)
    let yx ← liftL (self.correction.getElement 0 2)
    let yz ← liftL (self.correction.getElement 2 0)
    let zx ← liftL (self.correction.getElement 1 2)
    let zy ← liftL (self.correction.getElement 2 1)
    let xBias ← liftL (self.biases.getElement 0)
    let yBias ← liftL (self.biases.getElement 1)
    let zBias ← liftL (self.biases.getElement 2)
    .ok { xScale, yScale, zScale, xy, xz, yx, yz, zx, zy, xBias, yBias, zBias }
  else fail .MagNotInit

/-- `Magnetometer::correct` — open_ahrs/src/magnetometer.rs:191-198. -/
def correct : Op AhrsError (Magnetometer F) Unit := do
  let self ← Op.get
  onCorrected (Vec.sub self.raw self.biases)
  let self ← Op.get
  let m ← liftL self.corrected.convertToMatrix
  let m ← liftL (exec m (Mat.mul self.correction (← liftL m.duplicate)))
  onCorrected (m.getCol 0)

/-- `Magnetometer::update` — open_ahrs/src/magnetometer.rs:201-216. -/
def update (ax ay az : F) : Op AhrsError (Magnetometer F) Unit := do
  let self ← Op.get
  if !self.initialized then Op.fail .MagNotInit
  else do
    onRaw (Vec.setElement 0 ax)
    onRaw (Vec.setElement 1 ay)
    onRaw (Vec.setElement 2 az)
    correct

/-- `Magnetometer::get_x_magnetic_field` — open_ahrs/src/magnetometer.rs:219-229. -/
def getX (self : Magnetometer F) : Res AhrsError F :=
  if !self.initialized then fail .MagNotInit else liftL (self.corrected.getElement 0)

/-- `Magnetometer::get_y_magnetic_field` — open_ahrs/src/magnetometer.rs:232-242. -/
def getY (self : Magnetometer F) : Res AhrsError F :=
  if !self.initialized then fail .MagNotInit else liftL (self.corrected.getElement 1)

/-- `Magnetometer::get_z_magnetic_field` — open_ahrs/src/magnetometer.rs:245-255. -/
def getZ (self : Magnetometer F) : Res AhrsError F :=
  if !self.initialized then fail .MagNotInit else liftL (self.corrected.getElement 2)

end Magnetometer
end Verif
