import Verif.Model.Ar
import Verif.Model.Aqua

/-
Model of the test of `open_ahrs/src/lib.rs`, which simulates sensors and runs the AR and the AQUA filter on them.  The
test unwraps every result; here the error is returned instead.  The calls of `print` are left out: the program returns
what it prints.  The generator of the attitudes is the argument `draws`, as in `generateRandomAttitudes`.
-/

namespace Verif
open Scalar

/-- The tables printed by the test. -/
structure AhrsTest (F : Type) where
  /-- The attitudes, as Euler angles in degrees. -/
  attitudes : Mat F
  gyr : Mat F
  acc : Mat F
  mag : Mat F
  /-- The estimates of the AR filter and of the AQUA filter, as Euler angles in degrees. -/
  ar : Mat F
  aqua : Mat F

namespace AhrsTest
variable {F : Type} [Scalar F]

/-- A quaternion from column `n` of a table — open_ahrs/src/lib.rs:122-143. -/
def column (attitudes : Mat F) (n : Nat) : Res LinalgError (Vec F) := do
  let q ← exec Vec.new (Vec.init 4)
  let qw ← attitudes.getElement 0 n
  let qx ← attitudes.getElement 1 n
  let qy ← attitudes.getElement 2 n
  let qz ← attitudes.getElement 3 n
  exec q (Quat.fillq qw qx qy qz)

/-- The difference quotient — open_ahrs/src/lib.rs:126-127 and 145-147. -/
def derivative (qNow qNext : Vec F) (ts : F) : Res LinalgError (Vec F) := do
  let qDot ← exec Vec.new (Vec.init 4)
  let qDot ← exec qDot (Vec.sub qNext qNow)
  exec qDot (Vec.mulByScalarInPlace (lit 1 /ᶠ ts))

/-- "Method 1" for the angular rates — open_ahrs/src/lib.rs:152-165. -/
def method1 (qNow qNext : Vec F) (ts : F) : Res LinalgError (Vec F) := do
  let w ← exec Vec.new (Vec.init 3)
  let qw ← Quat.getQw qNow
  let qx ← Quat.getQx qNow
  let qy ← Quat.getQy qNow
  let qz ← Quat.getQz qNow
  let qw' ← Quat.getQw qNext
  let qx' ← Quat.getQx qNext
  let qy' ← Quat.getQy qNext
  let qz' ← Quat.getQz qNext
  let wx := qw *ᶠ qx' -ᶠ qx *ᶠ qw' -ᶠ qy *ᶠ qz' +ᶠ qz *ᶠ qy'
  let wy := qw *ᶠ qy' +ᶠ qx *ᶠ qz' -ᶠ qy *ᶠ qw' -ᶠ qz *ᶠ qx'
  let wz := qw *ᶠ qz' -ᶠ qx *ᶠ qy' +ᶠ qy *ᶠ qx' -ᶠ qz *ᶠ qw'
  let w ← exec w (Vec.setElement 0 wx)
  let w ← exec w (Vec.setElement 1 wy)
  let w ← exec w (Vec.setElement 2 wz)
  exec w (Vec.mulByScalarInPlace (lit 2 /ᶠ ts))

/-- "Method 2" — open_ahrs/src/lib.rs:171-197. -/
def method2 (qNow qDot : Vec F) : Res LinalgError (Vec F) := do
  let qw ← Quat.getQw qNow
  let qx ← Quat.getQx qNow
  let qy ← Quat.getQy qNow
  let qz ← Quat.getQz qNow
  let m ← exec Mat.new (Mat.init 4 3)
  let m ← exec m (Mat.setElement 0 0 (Scalar.neg qx))
  let m ← exec m (Mat.setElement 1 0 qw)
  let m ← exec m (Mat.setElement 2 0 qz)
  let m ← exec m (Mat.setElement 3 0 (Scalar.neg qy))
  let m ← exec m (Mat.setElement 0 1 (Scalar.neg qy))
  let m ← exec m (Mat.setElement 1 1 (Scalar.neg qz))
  let m ← exec m (Mat.setElement 2 1 qw)
  let m ← exec m (Mat.setElement 3 1 qx)
  let m ← exec m (Mat.setElement 0 2 (Scalar.neg qz))
  let m ← exec m (Mat.setElement 1 2 qy)
  let m ← exec m (Mat.setElement 2 2 (Scalar.neg qx))
  let m ← exec m (Mat.setElement 3 2 qw)
  let m ← m.duplicate
  let m ← exec m Mat.transpose
  let m ← exec m (Mat.mulByScalarInPlace (lit 2))
  let w ← m.mulNew (← qDot.convertToMatrix)
  w.colToVector 0

/-- "Method 3" — open_ahrs/src/lib.rs:209-212. -/
def method3 (qNow qDot : Vec F) : Res LinalgError (Vec F) := do
  let conj ← Quat.conjugateNew qNow
  let conj ← exec conj (Vec.mulByScalarInPlace (lit 2))
  let w ← Quat.mulNew conj qDot
  Quat.getVectorPart w

/-- What a sensor in the attitude `q` sees of a global vector, given as a quaternion — open_ahrs/src/lib.rs:228-230 and
234-236. -/
def toLocal (q global : Vec F) : Res LinalgError (Vec F) := do
  let v ← Quat.mulNew q global
  let v ← exec v (Quat.mul (← v.duplicate) (← Quat.conjugateNew q))
  Quat.getVectorPart v

/-- The tables filled by the simulation — open_ahrs/src/lib.rs:105-119. -/
structure Sim (F : Type) where
  rates : Mat F
  gyr : Mat F
  acc : Mat F
  mag : Mat F

/-- One step of the simulation — open_ahrs/src/lib.rs:121-240. -/
def simStep (attitudes : Mat F) (accGlobal magGlobal : Vec F) (ts : F) (n : Nat) (s : Sim F) :
    Res LinalgError (Sim F) := do
  let qNow ← column attitudes n
  let qNext ← column attitudes (n + 1)
  let qDot ← derivative qNow qNext ts
  let w ← method1 qNow qNext ts
  let rates ← exec s.rates (Mat.setCol w 0)
  let w ← method2 qNow qDot
  let rates ← exec rates (Mat.setCol w 1)
  let w ← method3 qNow qDot
  let rates ← exec rates (Mat.setCol w 2)
  let gyr ← exec s.gyr (Mat.setCol w n)
  let a ← toLocal qNow accGlobal
  let acc ← exec s.acc (Mat.setCol a n)
  let m ← toLocal qNow magGlobal
  let mag ← exec s.mag (Mat.setCol m n)
  .ok { rates := rates, gyr := gyr, acc := acc, mag := mag }

/-- A table filled with zeros. -/
def table (rows cols : Nat) : Res LinalgError (Mat F) := do
  let m ← exec Mat.new (Mat.init rows cols)
  exec m (Mat.fill (lit 0))

/-- The simulation — open_ahrs/src/lib.rs:105-240. -/
def simulate (attitudes : Mat F) (accGlobal magGlobal : Vec F) (ts : F) (niter : Nat) : Res LinalgError (Sim F) := do
  let rates ← table 3 3
  let gyr ← table 3 niter
  let acc ← table 3 niter
  let mag ← table 3 niter
  foldRange 0 niter (simStep attitudes accGlobal magGlobal ts) { rates := rates, gyr := gyr, acc := acc, mag := mag }

/-- The Euler angles, in degrees, of the quaternions in the columns of a table — open_ahrs/src/lib.rs:81-101, 348-370
and 446-466. -/
def eulerTable (quats : Mat F) (number : Nat) : Res LinalgError (Mat F) := do
  let m ← exec Mat.new (Mat.init 3 number)
  foldRange 0 number (fun n m => do
    let q ← quats.colToVector n
    let (phi, theta, psi) ← Quat.convertToEuler q
    let v ← exec Vec.new (Vec.init 3)
    let v ← exec v (Vec.setElement 0 (phi *ᶠ lit (572958 / 10000)))
    let v ← exec v (Vec.setElement 1 (theta *ᶠ lit (572958 / 10000)))
    let v ← exec v (Vec.setElement 2 (psi *ᶠ lit (572958 / 10000)))
    exec m (Mat.setCol v n)) m

/-- The estimates of the AR filter — open_ahrs/src/lib.rs:281-336. -/
def runAr (attitudes gyr : Mat F) (ts : F) (niter : Nat) : Res AhrsError (Mat F) := do
  let filter ← AR.new
  let qw ← liftL (attitudes.getElement 0 0)
  let qx ← liftL (attitudes.getElement 1 0)
  let qy ← liftL (attitudes.getElement 2 0)
  let qz ← liftL (attitudes.getElement 3 0)
  let filter ← exec filter (AR.init qw qx qy qz GyrometerConfig.default ts .Euler 3)
  let estimates ← liftL (table 4 niter)
  let (_, estimates) ← foldRange 0 niter (fun n (s : AR F × Mat F) => do
    let gx ← liftL (gyr.getElement 0 n)
    let gy ← liftL (gyr.getElement 1 n)
    let gz ← liftL (gyr.getElement 2 n)
    let filter ← exec s.1 (AR.update gx gy gz)
    let estimates ← liftL (exec s.2 (Mat.setCol (← filter.getAttitude) n))
    .ok (filter, estimates)) (filter, estimates)
  .ok estimates

/-- The arguments of `init` — open_ahrs/src/lib.rs:386-411. -/
def aquaInit (qw qx qy qz ts : F) : AquaInit F :=
  { mode := .MARG, qw := some qw, qx := some qx, qy := some qy, qz := some qz,
    gyrometerConfig := some GyrometerConfig.default, accelerometerConfig := AccelerometerConfig.default,
    magnetometerConfig := MagnetometerConfig.default, ts := ts, adaptive := false,
    alpha := lit (1 / 100), beta := lit (1 / 100), t1 := lit (1 / 10), t2 := lit (2 / 10),
    tAcc := lit (9 / 10), tMag := lit (9 / 10), g := none, h := none }

/-- The estimates of the AQUA filter — open_ahrs/src/lib.rs:384-434. -/
def runAqua (attitudes gyr acc mag : Mat F) (ts : F) (niter : Nat) : Res AhrsError (Mat F) := do
  let qw ← liftL (attitudes.getElement 0 0)
  let qx ← liftL (attitudes.getElement 1 0)
  let qy ← liftL (attitudes.getElement 2 0)
  let qz ← liftL (attitudes.getElement 3 0)
  let filter ← Aqua.new
  let filter ← exec filter (Aqua.init (aquaInit qw qx qy qz ts))
  let estimates ← liftL (table 4 niter)
  let (_, estimates) ← foldRange 0 niter (fun n (s : Aqua F × Mat F) => do
    let gx ← liftL (gyr.getElement 0 n)
    let gy ← liftL (gyr.getElement 1 n)
    let gz ← liftL (gyr.getElement 2 n)
    let ax ← liftL (acc.getElement 0 n)
    let ay ← liftL (acc.getElement 1 n)
    let az ← liftL (acc.getElement 2 n)
    let mx ← liftL (mag.getElement 0 n)
    let my ← liftL (mag.getElement 1 n)
    let mz ← liftL (mag.getElement 2 n)
    let filter ← exec s.1 (Aqua.update (some gx) (some gy) (some gz) ax ay az mx my mz)
    let estimates ← liftL (exec s.2 (Mat.setCol (← filter.getAttitude) n))
    .ok (filter, estimates)) (filter, estimates)
  .ok estimates

/-- `ar_series_method_test` — open_ahrs/src/lib.rs:33-469. -/
def arSeriesMethodTest (draws : Nat → Nat) : Res AhrsError (AhrsTest F) := do
  let ts : F := lit (1 / 100)
  let i : F := lit 35 *ᶠ lit (174533 / 10000000)
  let bx := lit 48 *ᶠ Scalar.cos i
  let bz := Scalar.neg (lit 48) *ᶠ Scalar.sin i
  let accGlobal ← liftL (exec Vec.new (Vec.init 4))
  let accGlobal ← liftL (exec accGlobal (Quat.fillq (lit 0) (lit 0) (lit 0) (lit (-981 / 100))))
  let magGlobal ← liftL (exec Vec.new (Vec.init 4))
  let magGlobal ← liftL (exec magGlobal (Quat.fillq (lit 0) bx (lit 0) bz))
  let attitudes ← liftL (Ahrs.generateRandomAttitudes draws 4)
  let attitudesEuler ← liftL (eulerTable attitudes 4)
  let sim ← liftL (simulate attitudes accGlobal magGlobal ts 3)
  let ar ← runAr attitudes sim.gyr ts 3
  let arEuler ← liftL (eulerTable ar 3)
  let aqua ← runAqua attitudes sim.gyr sim.acc sim.mag ts 3
  let aquaEuler ← liftL (eulerTable aqua 3)
  .ok { attitudes := attitudesEuler, gyr := sim.gyr, acc := sim.acc, mag := sim.mag, ar := arEuler, aqua := aquaEuler }

end AhrsTest
end Verif
