import Mathlib.Analysis.SpecialFunctions.Trigonometric.Basic
import Mathlib.LinearAlgebra.Matrix.NonsingularInverse

/-
`generate_raw_measurements.py`, over the real numbers: what is written to `build/raw_measurements.csv`
before it is formatted with three decimals.
-/

namespace Verif.Generator
open Matrix

/-- The exceptions that the program can end with. -/
inductive PyError
  | IndexError | LinAlgError
  deriving DecidableEq

/-- What `GenerateRawMeasurements` returns. -/
structure Reading where
  acc : Fin 3 → ℝ
  mag : Fin 3 → ℝ
  gyr : Fin 3 → ℝ

/-- `np.radians`. -/
noncomputable def radians (x : ℝ) : ℝ := x * (Real.pi / 180)

/-- `np.linalg.inv`: raises an exception on a singular matrix. -/
noncomputable def inv (m : Matrix (Fin 3) (Fin 3) ℝ) : Except PyError (Matrix (Fin 3) (Fin 3) ℝ) :=
  open Classical in if m.det = 0 then .error .LinAlgError else .ok m⁻¹

/-- `GenerateRawMeasurements`, lines 4-69. -/
noncomputable def generateRawMeasurements (rollAngle pitchAngle yawAngle previousRollAngle previousPitchAngle
    previousYawAngle Te : ℝ) : Except PyError Reading := do
  let g : ℝ := 981 / 100                                        -- 6
  let B : ℝ := 48                                               -- 7
  let i : ℝ := 0                                                -- 9
  let accRg : Fin 3 → ℝ := ![0, 0, -g]                          -- 11
  let phi := radians rollAngle                                  -- 15
  let theta := radians pitchAngle                               -- 16
  let psi := radians yawAngle                                   -- 17
  let Bx := B * Real.cos (radians i)                            -- 20
  let By : ℝ := 0                                               -- 21
  let Bz := -B * Real.sin (radians i)                           -- 22
  let previousPhi := radians previousRollAngle                  -- 25
  let previousTheta := radians previousPitchAngle               -- 26
  let previousPsi := radians previousYawAngle                   -- 27
  let d_phi := (phi - previousPhi) / Te                         -- 30
  let d_theta := (theta - previousTheta) / Te                   -- 31
  let d_psi := (psi - previousPsi) / Te                         -- 32
  let magRg : Fin 3 → ℝ := ![Bx, By, Bz]                        -- 34
  let gyrRg : Fin 3 → ℝ := ![d_phi, d_theta, d_psi]             -- 35
  let Rx : Matrix (Fin 3) (Fin 3) ℝ :=                          -- 38-42
    !![1, 0, 0; 0, Real.cos phi, -Real.sin phi; 0, Real.sin phi, Real.cos phi]
  let Ry : Matrix (Fin 3) (Fin 3) ℝ :=                          -- 44-48
    !![Real.cos theta, 0, Real.sin theta; 0, 1, 0; -Real.sin theta, 0, Real.cos theta]
  let Rz : Matrix (Fin 3) (Fin 3) ℝ :=                          -- 50-54
    !![Real.cos psi, -Real.sin psi, 0; Real.sin psi, Real.cos psi, 0; 0, 0, 1]
  let Omega : Matrix (Fin 3) (Fin 3) ℝ :=                       -- 56-60
    !![1, Real.sin phi * Real.tan theta, Real.cos phi * Real.tan theta;
       0, Real.cos phi, -Real.sin phi;
       0, Real.sin phi / Real.cos theta, Real.cos phi / Real.cos theta]
  let Rzyx := (Rz * Ry) * Rx                                    -- 63
  let accRs := Rzyx *ᵥ accRg                                    -- 64
  let magRs := Rzyx *ᵥ magRg                                    -- 65
  let OmegaInv ← inv Omega                                      -- 66
  let gyrRs := OmegaInv *ᵥ gyrRg                                -- 67
  return ⟨accRs, magRs, gyrRs⟩                                  -- 69

/-- Subscription of a list. -/
def index (l : List ℝ) (n : Nat) : Except PyError ℝ :=
  match l[n]? with
  | some x => .ok x
  | none => .error .IndexError

/-- The body of the loop, lines 114-157. -/
noncomputable def row (Te : ℝ) (roll pitch yaw : List ℝ) (n : Nat) : Except PyError Reading := do
  if n > 0 then                                                 -- 120
    generateRawMeasurements (← index roll n) (← index pitch n) (← index yaw n)
      (← index roll (n - 1)) (← index pitch (n - 1)) (← index yaw (n - 1)) Te
  else
    generateRawMeasurements (← index roll n) (← index pitch n) (← index yaw n) 0 0 0 Te

/-- The rows of the file, lines 71-157 (the sine motions of lines 83-90 are overwritten). -/
noncomputable def rows : Except PyError (List Reading) :=
  let Te : ℝ := 4 / 1000                                        -- 73
  let niter := 6                                                -- 74
  let roll : List ℝ := [0, 1, 2, 3, 4, 5]                       -- 85
  let pitch : List ℝ := [0, 1, 2, 3, 4, 5]                      -- 88
  let yaw : List ℝ := [0, 2, 4, 6, 8, 10]                       -- 91
  (List.range niter).mapM (row Te roll pitch yaw)

/-- The numbers of a row in the order of the columns, line 110. -/
def Reading.columns (r : Reading) : List ℝ :=
  [r.acc 0, r.acc 1, r.acc 2, r.gyr 0, r.gyr 1, r.gyr 2, r.mag 0, r.mag 1, r.mag 2]

end Verif.Generator
