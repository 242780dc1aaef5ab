import Verif.Model.Quaternion

/-
Model of `open_ahrs/src/common.rs`.
-/

namespace Verif
open Scalar

/-- `enum NumericalIntegrationMethod` — open_ahrs/src/common.rs:11-17. -/
inductive NIM where
  | ClosedForm
  | TaylorSeries
  | Euler
  | AdamsBashforth
  | RungeKutta
  deriving DecidableEq, Repr

/-- `enum OpenAHRSError` — open_ahrs/src/common.rs:22-57. -/
inductive AhrsError where
  | GyrNotInit
  | GyrAlreadyInit
  | InvalidCorrectionMatrix
  | InvalidStaticBiases
  | AccNotInit
  | AccAlreadyInit
  | MagNotInit
  | MagAlreadyInit
  | ARFilterAlreadyInit
  | ARFilterNotInit
  | ARMethodError
  | AquaFilterAlreadyInit
  | AquaFilterNotInit
  | NoGyroconfig
  | InvalidAquaMode
  | InvalidInitQuaternion
  | InvalidAquaInterpolationTreshold
  | InvalidAdaptiveGainTresholds
  | NoGyroRawMeasurements
  | InvalidGyroRawMeasurements
  | DavenportFilterAlreadyInit
  | InvalidDavenportWeights
  | DavenportFilterNotInit
  | LinalgError (e : Verif.LinalgError)
  deriving DecidableEq, Repr

/-- `?` on a linalg result inside a function returning `OpenAHRSError`
(`impl From<LinalgError> for OpenAHRSError`) — open_ahrs/src/common.rs:59-63. -/
@[reducible] def liftL {α : Type} (r : Res LinalgError α) : Res AhrsError α := r.mapErr .LinalgError

/-- A linalg method called with `?` on the field `get` of an open_ahrs object. -/
@[reducible] def fieldOp {σ τ α : Type} (get : σ → τ) (put : τ → σ → σ) (m : Op LinalgError τ α) :
    Op AhrsError σ α :=
  Op.zoom get put (Op.mapErr .LinalgError m)

namespace Ahrs
variable {F : Type} [Scalar F]

/-- The loop variables of `generate_random_attitudes`. -/
structure RandState (F : Type) where
  attitudes : Mat F
  previous : Vec F

/-- The target quaternion of one iteration — open_ahrs/src/common.rs:98-114, from the three 64-bit
draws of that iteration.  `(x / u64::MAX) as f32` is an integer division followed by a
conversion. -/
def randomTarget (d1 d2 d3 : Nat) : F × F × F × F :=
  let u1 : F := lit ((d1 / (2 ^ 64 - 1) : Nat) : ℚ)
  let u2 : F := lit ((d2 / (2 ^ 64 - 1) : Nat) : ℚ)
  let u3 : F := lit ((d3 / (2 ^ 64 - 1) : Nat) : ℚ)
  let s1 := Scalar.sqrt (lit 1 -ᶠ u1)
  let s2 := Scalar.sqrt u1
  let t1 := lit 2 *ᶠ PI *ᶠ u2
  let t2 := lit 2 *ᶠ PI *ᶠ u3
  (s2 *ᶠ Scalar.cos t2, s1 *ᶠ Scalar.sin t1, s1 *ᶠ Scalar.cos t1, s2 *ᶠ Scalar.sin t2)

/-- One iteration of `generate_random_attitudes` — open_ahrs/src/common.rs:96-160.  `draws k` is the
`k`-th value returned by the generator's `next_u64`. -/
def randomStep (draws : Nat → Nat) (n : Nat) (st : RandState F) :
    Res LinalgError (RandState F) := do
  let (qw, qx, qy, qz) := (randomTarget (draws (3 * n)) (draws (3 * n + 1)) (draws (3 * n + 2)) :
    F × F × F × F)
  let actual ← exec Vec.new (Vec.init 4)
  let actual ← exec actual (Quat.fillq qw qx qy qz)
  let scalar ← actual.dotProduct st.previous
  let theta := Scalar.acos scalar
  let maxAngle : F := PI /ᶠ lit 64
  let (qw, qx, qy, qz, previous) ← (if Scalar.abs theta >ᶠ maxAngle then do
      let scale := maxAngle /ᶠ Scalar.abs theta
      let interpolated ← exec Vec.new (Vec.init 4)
      let interpolated ← exec interpolated (Vec.slerp st.previous actual scale)
      let qw ← Quat.getQw interpolated
      let qx ← Quat.getQx interpolated
      let qy ← Quat.getQy interpolated
      let qz ← Quat.getQz interpolated
      let previous ← exec st.previous (Vec.copyFrom interpolated)
      .ok (qw, qx, qy, qz, previous)
    else do
      let previous ← exec st.previous (Vec.copyFrom actual)
      .ok (qw, qx, qy, qz, previous) : Res LinalgError (F × F × F × F × Vec F))
  let attitudes ← exec st.attitudes (Mat.setElement 0 n qw)
  let attitudes ← exec attitudes (Mat.setElement 1 n qx)
  let attitudes ← exec attitudes (Mat.setElement 2 n qy)
  let attitudes ← exec attitudes (Mat.setElement 3 n qz)
  .ok { attitudes := attitudes, previous := previous }

/-- `generate_random_attitudes` — open_ahrs/src/common.rs:73-163.  The generator
(`SmallRng::seed_from_u64(0)`) is the argument `draws`. -/
def generateRandomAttitudes (draws : Nat → Nat) (number : Nat) : Res LinalgError (Mat F) := do
  isValidColsNumber number
  let attitudes ← exec Mat.new (Mat.init 4 number)
  let previous ← exec Vec.new (Vec.init 4)
  let previous ← exec previous Quat.fillIdentity
  let st ← foldRange 0 number (randomStep draws) { attitudes := attitudes, previous := previous }
  .ok st.attitudes

/-- `calculate_omega_matrix` — open_ahrs/src/common.rs:166-196.  Only linalg errors can occur; the
`?` conversion to `OpenAHRSError` is applied by the callers of the model. -/
def calculateOmegaMatrix (p q r : F) : Res LinalgError (Mat F) := do
  let omega ← exec Mat.new (Mat.init 4 4)
  let omega ← exec omega (Mat.setElement 0 0 (lit 0))
  let omega ← exec omega (Mat.setElement 1 0 p)
  let omega ← exec omega (Mat.setElement 2 0 q)
  let omega ← exec omega (Mat.setElement 3 0 r)
  let omega ← exec omega (Mat.setElement 0 1 (Scalar.neg p))
  let omega ← exec omega (Mat.setElement 1 1 (lit 0))
  let omega ← exec omega (Mat.setElement 2 1 (Scalar.neg r))
  let omega ← exec omega (Mat.setElement 3 1 q)
  let omega ← exec omega (Mat.setElement 0 2 (Scalar.neg q))
  let omega ← exec omega (Mat.setElement 1 2 r)
  let omega ← exec omega (Mat.setElement 2 2 (lit 0))
  let omega ← exec omega (Mat.setElement 3 2 (Scalar.neg p))
  let omega ← exec omega (Mat.setElement 0 3 (Scalar.neg r))
  let omega ← exec omega (Mat.setElement 1 3 (Scalar.neg q))
  let omega ← exec omega (Mat.setElement 2 3 p)
  exec omega (Mat.setElement 3 3 (lit 0))

end Ahrs
end Verif
