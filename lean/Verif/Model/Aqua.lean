import Verif.Model.Gyrometer
import Verif.Model.Accelerometer
import Verif.Model.Magnetometer

/-
Model of `open_ahrs/src/aqua.rs`.
-/

namespace Verif
open Scalar

/-- `enum Mode` — open_ahrs/src/aqua.rs:21-24. -/
inductive AquaMode where
  | MARG
  | AM
  deriving DecidableEq, Repr

/-- `struct Aqua` — open_ahrs/src/aqua.rs:27-51. -/
structure Aqua (F : Type) where
  mode : AquaMode
  gyr : Gyrometer F
  acc : Accelerometer F
  mag : Magnetometer F
  attitude : Vec F
  ts : F
  adaptive : Bool
  alpha : F
  beta : F
  t1 : F
  t2 : F
  tAcc : F
  tMag : F
  g : F
  h : F
  initialized : Bool

/-- The arguments of `Aqua::init` — open_ahrs/src/aqua.rs:88-102. -/
structure AquaInit (F : Type) where
  mode : AquaMode
  qw : Option F
  qx : Option F
  qy : Option F
  qz : Option F
  gyrometerConfig : Option (GyrometerConfig F)
  accelerometerConfig : AccelerometerConfig F
  magnetometerConfig : MagnetometerConfig F
  ts : F
  adaptive : Bool
  alpha : F
  beta : F
  t1 : F
  t2 : F
  tAcc : F
  tMag : F
  g : Option F
  h : Option F

namespace Aqua
variable {F : Type} [Scalar F]

/-- `Aqua::new` — open_ahrs/src/aqua.rs:55-84. -/
def new : Res AhrsError (Aqua F) := do
  let gyr ← Gyrometer.new
  let acc ← Accelerometer.new
  let mag ← Magnetometer.new
  .ok { mode := .MARG, gyr := gyr, acc := acc, mag := mag, attitude := Vec.new, ts := lit (1 / 100),
        adaptive := true, alpha := lit (1 / 100), beta := lit (1 / 100), t1 := lit (1 / 10),
        t2 := lit (2 / 10), tAcc := lit (9 / 10), tMag := lit (9 / 10), g := lit (981 / 100),
        h := lit 48, initialized := false }

/-- A method on the field `gyr`. -/
def onGyr {α : Type} (m : Op AhrsError (Gyrometer F) α) : Op AhrsError (Aqua F) α :=
  Op.zoom Aqua.gyr (fun g s => { s with gyr := g }) m
/-- A method on the field `acc`. -/
def onAcc {α : Type} (m : Op AhrsError (Accelerometer F) α) : Op AhrsError (Aqua F) α :=
  Op.zoom Aqua.acc (fun g s => { s with acc := g }) m
/-- A method on the field `mag`. -/
def onMag {α : Type} (m : Op AhrsError (Magnetometer F) α) : Op AhrsError (Aqua F) α :=
  Op.zoom Aqua.mag (fun g s => { s with mag := g }) m
/-- A linalg method on the field `attitude`. -/
def onAttitude {α : Type} (m : Op LinalgError (Vec F) α) : Op AhrsError (Aqua F) α :=
  fieldOp Aqua.attitude (fun a s => { s with attitude := a }) m

/-- The initial quaternion argument: all components, none, or an error —
open_ahrs/src/aqua.rs:133-137. -/
def initQuaternion (qw qx qy qz : Option F) : Res AhrsError (Option (F × F × F × F)) :=
  match qw, qx, qy, qz with
  | some qw, some qx, some qy, some qz => .ok (some (qw, qx, qy, qz))
  | none, none, none, none => .ok none
  | _, _, _, _ => fail .InvalidInitQuaternion

/-- `Aqua::init` — open_ahrs/src/aqua.rs:87-167.  The branch `InvalidAquaMode` is unreachable, the
enumeration has two values. -/
def init (a : AquaInit F) : Op AhrsError (Aqua F) Unit := do
  let self ← Op.get
  if self.initialized then Op.fail .AquaFilterAlreadyInit
  else do
    onAttitude (Vec.init 4)
    onAttitude Quat.fillIdentity
    (match a.mode with
      | .MARG =>
        match a.gyrometerConfig with
        | none => Op.fail .NoGyroconfig
        | some config => do
          onGyr (Gyrometer.init config)
          onAcc (Accelerometer.init a.accelerometerConfig)
          onMag (Magnetometer.init a.magnetometerConfig)
      | .AM => do
        onAcc (Accelerometer.init a.accelerometerConfig)
        onMag (Magnetometer.init a.magnetometerConfig) : Op AhrsError (Aqua F) Unit)
    let quat ← initQuaternion a.qw a.qx a.qy a.qz
    (match quat with
      | some (qw, qx, qy, qz) => onAttitude (Quat.fillq qw qx qy qz)
      | none => pure () : Op AhrsError (Aqua F) Unit)
    Op.modify fun self =>
      { self with
        mode := a.mode, ts := a.ts, adaptive := a.adaptive, alpha := a.alpha, beta := a.beta,
        t1 := a.t1, t2 := a.t2, tAcc := a.tAcc, tMag := a.tMag, g := a.g.getD self.g,
        h := a.h.getD self.h, initialized := true }

/-- `Aqua::set_accelerometer_config` — open_ahrs/src/aqua.rs:170-173. -/
def setAccelerometerConfig (config : AccelerometerConfig F) : Op AhrsError (Aqua F) Unit :=
  onAcc (Accelerometer.setConfig config)

/-- `Aqua::set_gyrometer_config` — open_ahrs/src/aqua.rs:176-179. -/
def setGyrometerConfig (config : GyrometerConfig F) : Op AhrsError (Aqua F) Unit :=
  onGyr (Gyrometer.setConfig config)

/-- `Aqua::set_magnetometer_config` — open_ahrs/src/aqua.rs:182-185. -/
def setMagnetometerConfig (config : MagnetometerConfig F) : Op AhrsError (Aqua F) Unit :=
  onMag (Magnetometer.setConfig config)

/-- `Aqua::get_accelerometer_config` — open_ahrs/src/aqua.rs:188-191. -/
def getAccelerometerConfig (self : Aqua F) : Res AhrsError (AccelerometerConfig F) :=
  self.acc.getConfig

/-- `Aqua::get_gyrometer_config` — open_ahrs/src/aqua.rs:194-197. -/
def getGyrometerConfig (self : Aqua F) : Res AhrsError (GyrometerConfig F) := self.gyr.getConfig

/-- `Aqua::get_magnetometer_config` — open_ahrs/src/aqua.rs:200-203. -/
def getMagnetometerConfig (self : Aqua F) : Res AhrsError (MagnetometerConfig F) :=
  self.mag.getConfig

/-- `Aqua::interpolate` — open_ahrs/src/aqua.rs:206-230. -/
def interpolate (quat : Vec F) (alpha treshold : F) : Res AhrsError (Vec F) := do
  if !Utils.inRange treshold (lit 0) (lit 1) then fail .InvalidAquaInterpolationTreshold
  else do
    let identityQuat ← liftL (exec Vec.new (Vec.init 4))
    let identityQuat ← liftL (exec identityQuat Quat.fillIdentity)
    let interpolated ← liftL (exec Vec.new (Vec.init 4))
    if (← liftL (Quat.getQw quat)) >ᶠ treshold then do
      let interpolated ← liftL (exec interpolated (Vec.lerp identityQuat quat alpha))
      liftL (exec interpolated Vec.normalize)
    else
      liftL (exec interpolated (Vec.slerp identityQuat quat alpha))

/-- `Aqua::calculate_adaptative_gain` — open_ahrs/src/aqua.rs:233-256. -/
def calculateAdaptativeGain (self : Aqua F) (gain : F) (vectGlobal : Vec F) (reference : F) :
    Res AhrsError F := do
  if self.t2 ≤ᶠ self.t1 then fail .InvalidAdaptiveGainTresholds
  else do
    let vectNorm ← liftL vectGlobal.calculateNorm
    let normError := Scalar.abs ((vectNorm -ᶠ reference) /ᶠ reference)
    let newGain : F :=
      if (self.t1 <ᶠ normError) && (normError <ᶠ self.t2) then
        gain *ᶠ (self.t1 -ᶠ normError) /ᶠ self.t1
      else lit 0
    let newGain : F := if normError ≤ᶠ self.t1 then gain else newGain
    .ok newGain

/-- The partial quaternion from a gravity direction — open_ahrs/src/aqua.rs:386-398 (with the
predicted gravity) and 458-470 (with the normalised acceleration). -/
def accQuaternion (gx gy gz : F) : F × F × F × F :=
  if gz <ᶠ lit 0 then
    let l1 := Scalar.sqrt ((lit 1 -ᶠ gz) /ᶠ lit 2)
    (l1, gy /ᶠ (lit 2 *ᶠ l1), Scalar.neg gx /ᶠ (lit 2 *ᶠ l1), lit 0)
  else
    let l2 := Scalar.sqrt ((lit 1 +ᶠ gz) /ᶠ lit 2)
    (gy /ᶠ (lit 2 *ᶠ l2), l2, lit 0, Scalar.neg gx /ᶠ (lit 2 *ᶠ l2))

/-- The heading quaternion used when `lx >= 0` in AM mode and always in MARG mode —
open_ahrs/src/aqua.rs:438-441 and 486-489. -/
def magQuaternionPos (lx ly gamma : F) : F × F × F × F :=
  (Scalar.sqrt (gamma +ᶠ lx *ᶠ Scalar.sqrt gamma) /ᶠ Scalar.sqrt (lit 2 *ᶠ gamma),
    lit 0, lit 0,
    ly /ᶠ (Scalar.sqrt (lit 2) *ᶠ Scalar.sqrt (gamma +ᶠ lx *ᶠ Scalar.sqrt gamma)))

/-- The heading quaternion used in AM mode when `lx < 0` — open_ahrs/src/aqua.rs:491-494. -/
def magQuaternionNeg (lx ly gamma : F) : F × F × F × F :=
  (ly /ᶠ (Scalar.sqrt (lit 2) *ᶠ Scalar.sqrt (gamma -ᶠ lx *ᶠ Scalar.sqrt gamma)),
    lit 0, lit 0,
    Scalar.sqrt (gamma -ᶠ lx *ᶠ Scalar.sqrt gamma) /ᶠ Scalar.sqrt (lit 2 *ᶠ gamma))

/-- `temp.mul(transpose(dcm of q), v as a matrix); temp.col_to_vector(0)`: a vector carried to the
other frame — open_ahrs/src/aqua.rs:373-376, 412-416 and 475-478. -/
def toGlobal (temp : Mat F) (q v : Vec F) : Res AhrsError (Mat F × Vec F) := do
  let dcm ← liftL (Quat.convertToDcm q)
  let dcm ← liftL (exec dcm Mat.transpose)
  let temp ← liftL (exec temp (Mat.mul dcm (← liftL v.convertToMatrix)))
  let g ← liftL (temp.colToVector 0)
  .ok (temp, g)

/-- Reading the gyrometer arguments and updating the gyrometer in MARG mode —
open_ahrs/src/aqua.rs:271-284. -/
def updateGyr (gx gy gz : Option F) : Op AhrsError (Aqua F) Unit :=
  match gx, gy, gz with
  | some gx, some gy, some gz => onGyr (Gyrometer.update gx gy gz)
  | none, none, none => Op.fail .NoGyroRawMeasurements
  | _, _, _ => Op.fail .InvalidGyroRawMeasurements

/-- The prediction step — open_ahrs/src/aqua.rs:346-370.  The local vector `w_local` is never read;
its three stores are kept because they can fail. -/
def predict (self : Aqua F) : Res AhrsError (Vec F) := do
  let p ← self.gyr.getX
  let q ← self.gyr.getY
  let r ← self.gyr.getZ
  let wLocal ← liftL (exec Vec.new (Vec.init 3))
  let wLocal ← liftL (exec wLocal (Vec.setElement 0 p))
  let wLocal ← liftL (exec wLocal (Vec.setElement 1 q))
  let _ ← liftL (exec wLocal (Vec.setElement 2 r))
  let omega ← liftL (Ahrs.calculateOmegaMatrix p q r)
  let omega ← liftL (exec omega (Mat.mulByScalarInPlace (lit (1 / 2))))
  let derivative ← liftL (omega.mulNew (← liftL self.attitude.convertToMatrix))
  let delta ← liftL (derivative.colToVector 0)
  let delta ← liftL (exec delta (Vec.mulByScalarInPlace self.ts))
  let gyrQuat ← liftL (exec Vec.new (Vec.init 4))
  let gyrQuat ← liftL (exec gyrQuat (Vec.add self.attitude delta))
  liftL (exec gyrQuat Vec.normalize)

/-- The MARG branch of `update` — open_ahrs/src/aqua.rs:344-455. -/
def updateMarg (aLocal mLocal accQuat magQuat : Vec F) (temp : Mat F) :
    Op AhrsError (Aqua F) Unit := do
  let self ← Op.get
  let gyrQuat ← predict self
  let (temp, aGlobal) ← toGlobal temp gyrQuat aLocal
  let gx ← liftL (aGlobal.getElement 0)
  let gy ← liftL (aGlobal.getElement 1)
  let gz ← liftL (aGlobal.getElement 2)
  let (qw, qx, qy, qz) := accQuaternion gx gy gz
  let accQuat ← liftL (exec accQuat (Quat.fillq qw qx qy qz))
  (if self.adaptive then do
      let alpha ← self.calculateAdaptativeGain self.alpha aLocal self.g
      Op.modify fun self => { self with alpha := alpha }
    else pure () : Op AhrsError (Aqua F) Unit)
  let self ← Op.get
  let accInterpolated ← interpolate accQuat self.alpha self.tAcc
  onAttitude (Quat.mul gyrQuat accInterpolated)
  let self ← Op.get
  let (_, mGlobal) ← toGlobal temp self.attitude mLocal
  let lx ← liftL (mGlobal.getElement 0)
  let ly ← liftL (mGlobal.getElement 1)
  let gamma := lx *ᶠ lx +ᶠ ly *ᶠ ly
  let (qw, qx, qy, qz) := magQuaternionPos lx ly gamma
  let magQuat ← liftL (exec magQuat (Quat.fillq qw qx qy qz))
  let magInterpolated ← interpolate magQuat self.beta self.tMag
  let copy ← liftL self.attitude.duplicate
  onAttitude (Quat.mul copy magInterpolated)

/-- The AM branch of `update` — open_ahrs/src/aqua.rs:456-500. -/
def updateAm (ax ay az : F) (mLocal accQuat magQuat : Vec F) (temp : Mat F) :
    Op AhrsError (Aqua F) Unit := do
  let (qw, qx, qy, qz) := accQuaternion ax ay az
  let accQuat ← liftL (exec accQuat (Quat.fillq qw qx qy qz))
  let (_, mGlobal) ← toGlobal temp accQuat mLocal
  let lx ← liftL (mGlobal.getElement 0)
  let ly ← liftL (mGlobal.getElement 1)
  let gamma := lx *ᶠ lx +ᶠ ly *ᶠ ly
  let (qw, qx, qy, qz) :=
    if lx ≥ᶠ lit 0 then magQuaternionPos lx ly gamma else magQuaternionNeg lx ly gamma
  let magQuat ← liftL (exec magQuat (Quat.fillq qw qx qy qz))
  onAttitude (Quat.mul accQuat magQuat)

/-- A fresh 3-vector with the given components — open_ahrs/src/aqua.rs:294-300 and 316-322. -/
def vector3 (x y z : F) : Res AhrsError (Vec F) := do
  let v ← liftL (exec Vec.new (Vec.init 3))
  let v ← liftL (exec v (Vec.setElement 0 x))
  let v ← liftL (exec v (Vec.setElement 1 y))
  liftL (exec v (Vec.setElement 2 z))

/-- `Aqua::update` — open_ahrs/src/aqua.rs:259-505. -/
def update (gx gy gz : Option F) (ax ay az mx my mz : F) : Op AhrsError (Aqua F) Unit := do
  let self ← Op.get
  if !self.initialized then Op.fail .AquaFilterNotInit
  else do
    (match self.mode with
      | .MARG => updateGyr gx gy gz
      | .AM => pure () : Op AhrsError (Aqua F) Unit)
    onAcc (Accelerometer.update ax ay az)
    onMag (Magnetometer.update mx my mz)
    let self ← Op.get
    let ax ← self.acc.getX
    let ay ← self.acc.getY
    let az ← self.acc.getZ
    let aLocal ← vector3 ax ay az
    let aNorm ← liftL aLocal.calculateNorm
    let (ax, ay, az) ← (if aNorm >ᶠ EPSILON then do
        let x ← liftL (aLocal.getElement 0)
        let y ← liftL (aLocal.getElement 1)
        let z ← liftL (aLocal.getElement 2)
        .ok (x /ᶠ aNorm, y /ᶠ aNorm, z /ᶠ aNorm)
      else .ok (ax, ay, az) : Res AhrsError (F × F × F))
    let mx ← self.mag.getX
    let my ← self.mag.getY
    let mz ← self.mag.getZ
    let mLocal ← vector3 mx my mz
    let mLocal ← liftL (exec mLocal Vec.normalize)
    let accQuat ← liftL (exec Vec.new (Vec.init 4))
    let magQuat ← liftL (exec Vec.new (Vec.init 4))
    let temp ← liftL (exec Mat.new (Mat.init 3 1))
    (match self.mode with
      | .MARG => updateMarg aLocal mLocal accQuat magQuat temp
      | .AM => updateAm ax ay az mLocal accQuat magQuat temp : Op AhrsError (Aqua F) Unit)
    onAttitude Vec.normalize

/-- `Aqua::get_attitude` — open_ahrs/src/aqua.rs:507-515. -/
def getAttitude (self : Aqua F) : Res AhrsError (Vec F) :=
  if !self.initialized then fail .AquaFilterNotInit else liftL self.attitude.duplicate

end Aqua
end Verif
