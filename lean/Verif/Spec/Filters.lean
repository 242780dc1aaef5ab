import Verif.Spec.Sensors
import Verif.Model.Ar
import Verif.Model.Aqua
import Verif.Model.Davenport

/-
Histories of calls on the attitude filters.
-/

namespace Verif

/-- The arguments of `AR::init`. -/
structure ARInit (F : Type) where
  qw : F
  qx : F
  qy : F
  qz : F
  config : GyrometerConfig F
  ts : F
  method : NIM
  order : Nat

/-- The public calls that can change an AR filter. -/
inductive ARCall (F : Type) where
  | init (a : ARInit F)
  | update (gx gy gz : F)

/-- The public calls that can change an AQUA filter. -/
inductive AquaCall (F : Type) where
  | init (a : AquaInit F)
  | setGyr (c : GyrometerConfig F)
  | setAcc (c : AccelerometerConfig F)
  | setMag (c : MagnetometerConfig F)
  | update (gx gy gz : Option F) (ax ay az mx my mz : F)

/-- The public calls that can change a Davenport filter. -/
inductive DavenportCall (F : Type) where
  | init (w1 w2 : F) (g mdip : Option F)
  | update (ax ay az mx my mz : F)

section
variable {F : Type} [Scalar F]

def AR.initWith (a : ARInit F) : Op AhrsError (AR F) Unit :=
  AR.init a.qw a.qx a.qy a.qz a.config a.ts a.method a.order

def AR.call : ARCall F → Op AhrsError (AR F) Unit
  | .init a => AR.initWith a
  | .update gx gy gz => AR.update gx gy gz

def Aqua.call : AquaCall F → Op AhrsError (Aqua F) Unit
  | .init a => Aqua.init a
  | .setGyr c => Aqua.setGyrometerConfig c
  | .setAcc c => Aqua.setAccelerometerConfig c
  | .setMag c => Aqua.setMagnetometerConfig c
  | .update gx gy gz ax ay az mx my mz => Aqua.update gx gy gz ax ay az mx my mz

def Davenport.call : DavenportCall F → Op AhrsError (Davenport F) Unit
  | .init w1 w2 g mdip => Davenport.init w1 w2 g mdip
  | .update ax ay az mx my mz => Davenport.update ax ay az mx my mz

/-- `s'` results from `s` by some calls, whether they succeeded or failed. -/
inductive AR.Leads : AR F → AR F → Prop
  | refl (s : AR F) : Leads s s
  | step {s s' : AR F} (k : ARCall F) (h : Leads s s') : Leads s (AR.call k s').2

inductive Aqua.Leads : Aqua F → Aqua F → Prop
  | refl (s : Aqua F) : Leads s s
  | step {s s' : Aqua F} (k : AquaCall F) (h : Leads s s') : Leads s (Aqua.call k s').2

inductive Davenport.Leads : Davenport F → Davenport F → Prop
  | refl (s : Davenport F) : Leads s s
  | step {s s' : Davenport F} (k : DavenportCall F) (h : Leads s s') : Leads s (Davenport.call k s').2

/-- The filter arises from `new` by some calls. -/
def AR.Reachable (s : AR F) : Prop := ∃ s0, AR.new = .ok s0 ∧ Leads s0 s
def Aqua.Reachable (s : Aqua F) : Prop := ∃ s0, Aqua.new = .ok s0 ∧ Leads s0 s
def Davenport.Reachable (s : Davenport F) : Prop := ∃ s0, Davenport.new = .ok s0 ∧ Leads s0 s

/-- The filter arises by some calls from a successful `init` with the arguments `a`. -/
def AR.Started (a : ARInit F) (s : AR F) : Prop :=
  ∃ s0 s1, AR.Reachable s0 ∧ AR.initWith a s0 = (.ok (), s1) ∧ AR.Leads s1 s

def Aqua.Started (a : AquaInit F) (s : Aqua F) : Prop :=
  ∃ s0 s1, Aqua.Reachable s0 ∧ Aqua.init a s0 = (.ok (), s1) ∧ Aqua.Leads s1 s

def Davenport.Started (s : Davenport F) : Prop :=
  ∃ s0 s1 w1 w2 g mdip, Davenport.Reachable s0 ∧ Davenport.init w1 w2 g mdip s0 = (.ok (), s1) ∧ Davenport.Leads s1 s

/-- The weights a Davenport `init` accepts: both in the interval from `EPSILON` to 1, so not NaN. -/
def Davenport.Weights (w1 w2 : F) : Prop :=
  (Scalar.lit (1 / 10000) ≤ᶠ w1) = true ∧ (w1 ≤ᶠ Scalar.lit 1) = true ∧ (Scalar.lit (1 / 10000) ≤ᶠ w2) = true ∧ (w2 ≤ᶠ Scalar.lit 1) = true

/-- The arguments an AQUA `init` accepts: finite sensor parameters, a gyrometer configuration in the
MARG mode, and an initial quaternion that is absent or complete and finite. -/
structure AquaInit.Valid (a : AquaInit F) : Prop where
  gyr : a.mode = .MARG → ∃ c, a.gyrometerConfig = some c ∧ ∀ x ∈ c.params, Finite x
  acc : ∀ x ∈ a.accelerometerConfig.params, Finite x
  mag : ∀ x ∈ a.magnetometerConfig.params, Finite x
  quat : (a.qw = none ∧ a.qx = none ∧ a.qy = none ∧ a.qz = none) ∨
    ∃ w x y z, a.qw = some w ∧ a.qx = some x ∧ a.qy = some y ∧ a.qz = some z ∧ Finite w ∧ Finite x ∧
      Finite y ∧ Finite z

end
end Verif
