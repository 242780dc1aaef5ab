import Verif.Model.Gyrometer
import Verif.Model.Accelerometer
import Verif.Model.Magnetometer

/-
Histories of calls on the sensors: `C` is the configuration type.
-/

namespace Verif

/-- The public calls that can change a sensor. -/
inductive SensorCall (C F : Type) where
  | init (c : C)
  | setConfig (c : C)
  | update (x y z : F)

section
variable {F : Type} [Scalar F]

def Gyrometer.call : SensorCall (GyrometerConfig F) F → Op AhrsError (Gyrometer F) Unit
  | .init c => Gyrometer.init c
  | .setConfig c => Gyrometer.setConfig c
  | .update x y z => Gyrometer.update x y z

def Accelerometer.call : SensorCall (AccelerometerConfig F) F → Op AhrsError (Accelerometer F) Unit
  | .init c => Accelerometer.init c
  | .setConfig c => Accelerometer.setConfig c
  | .update x y z => Accelerometer.update x y z

def Magnetometer.call : SensorCall (MagnetometerConfig F) F → Op AhrsError (Magnetometer F) Unit
  | .init c => Magnetometer.init c
  | .setConfig c => Magnetometer.setConfig c
  | .update x y z => Magnetometer.update x y z

/-- `g'` results from `g` by some calls, whether they succeeded or failed. -/
inductive Gyrometer.Leads : Gyrometer F → Gyrometer F → Prop
  | refl (g : Gyrometer F) : Leads g g
  | step {g g' : Gyrometer F} (k : SensorCall (GyrometerConfig F) F) (h : Leads g g') :
      Leads g (Gyrometer.call k g').2

inductive Accelerometer.Leads : Accelerometer F → Accelerometer F → Prop
  | refl (g : Accelerometer F) : Leads g g
  | step {g g' : Accelerometer F} (k : SensorCall (AccelerometerConfig F) F) (h : Leads g g') :
      Leads g (Accelerometer.call k g').2

inductive Magnetometer.Leads : Magnetometer F → Magnetometer F → Prop
  | refl (g : Magnetometer F) : Leads g g
  | step {g g' : Magnetometer F} (k : SensorCall (MagnetometerConfig F) F) (h : Leads g g') :
      Leads g (Magnetometer.call k g').2

/-- The sensor arises from `new` by some calls. -/
def Gyrometer.Reachable (g : Gyrometer F) : Prop := ∃ g0, Gyrometer.new = .ok g0 ∧ Leads g0 g
def Accelerometer.Reachable (g : Accelerometer F) : Prop :=
  ∃ g0, Accelerometer.new = .ok g0 ∧ Leads g0 g
def Magnetometer.Reachable (g : Magnetometer F) : Prop :=
  ∃ g0, Magnetometer.new = .ok g0 ∧ Leads g0 g

/-- The parameters of a configuration, in the order in which they are written. -/
def GyrometerConfig.params (c : GyrometerConfig F) : List F :=
  [c.xScale, c.yScale, c.zScale, c.xy, c.xz, c.yx, c.yz, c.zx, c.zy, c.xBias, c.yBias, c.zBias]
def AccelerometerConfig.params (c : AccelerometerConfig F) : List F :=
  [c.xScale, c.yScale, c.zScale, c.xy, c.xz, c.yx, c.yz, c.zx, c.zy, c.xBias, c.yBias, c.zBias]
def MagnetometerConfig.params (c : MagnetometerConfig F) : List F :=
  [c.xScale, c.yScale, c.zScale, c.xy, c.xz, c.yx, c.yz, c.zx, c.zy, c.xBias, c.yBias, c.zBias]

end
end Verif
