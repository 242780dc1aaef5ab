import Verif.Props.Gyrometer
import Verif.Props.Accelerometer
import Verif.Props.Magnetometer

/-
C67: what the name of a cross-axis correction factor means.
-/

namespace Verif
open Scalar

/-- A sensor axis. -/
inductive Axis where
  | x | y | z
  deriving DecidableEq

section
variable {F : Type} [Scalar F]

/-- The configuration field named after the axes `a` and `b`; the scale factor if they are equal. -/
def Gyrometer.factor (c : GyrometerConfig F) : Axis → Axis → F
  | .x, .x => c.xScale | .x, .y => c.xy | .x, .z => c.xz
  | .y, .x => c.yx | .y, .y => c.yScale | .y, .z => c.yz
  | .z, .x => c.zx | .z, .y => c.zy | .z, .z => c.zScale

/-- The corrected sample on an axis. -/
def Gyrometer.read (g : Gyrometer F) : Axis → Res AhrsError F
  | .x => g.getX | .y => g.getY | .z => g.getZ

/-- Two configurations that differ at most in the factor named `ab`. -/
def Gyrometer.DifferOnlyIn (a b : Axis) (c d : GyrometerConfig F) : Prop :=
  (∀ a' b', ¬ (a' = a ∧ b' = b) → Gyrometer.factor c a' b' = Gyrometer.factor d a' b') ∧
    c.xBias = d.xBias ∧ c.yBias = d.yBias ∧ c.zBias = d.zBias

end

section
variable {F : Type} [Scalar F] [ScalarLawful F]
open Gyrometer

/-- C67: the factor named `ab` acts on axis `b` only: two sensors whose configurations differ only in
that factor give the same corrected sample on the other two axes. -/
theorem C67_gyr_target {a b : Axis} {c d : GyrometerConfig F} {g h g' h' : Gyrometer F} {x y z : F}
    (hcd : DifferOnlyIn a b c d) (hg : Reachable g) (hh : Reachable h)
    (hc : getConfig g = .ok c) (hd : getConfig h = .ok d)
    (e1 : update x y z g = (.ok (), g')) (e2 : update x y z h = (.ok (), h')) {k : Axis} (hk : k ≠ b) :
    Gyrometer.read h' k = Gyrometer.read g' k := by
  obtain ⟨-, h1, h2, h3, -⟩ := C43_gyr_formula hg hc e1
  obtain ⟨-, h4, h5, h6, -⟩ := C43_gyr_formula hh hd e2
  obtain ⟨hf, b1, b2, b3⟩ := hcd
  have f : ∀ a', Gyrometer.factor c a' k = Gyrometer.factor d a' k := fun a' => hf a' k fun e => hk e.2
  have fx := f .x
  have fy := f .y
  have fz := f .z
  cases k
  · show getX h' = getX g'
    rw [h1, h4]; simp only [Gyrometer.factor] at fx fy fz
    simp only [corrX, fx, fy, fz, b1, b2, b3]
  · show getY h' = getY g'
    rw [h2, h5]; simp only [Gyrometer.factor] at fx fy fz
    simp only [corrY, fx, fy, fz, b1, b2, b3]
  · show getZ h' = getZ g'
    rw [h3, h6]; simp only [Gyrometer.factor] at fx fy fz
    simp only [corrZ, fx, fy, fz, b1, b2, b3]

end


section
variable {F : Type} [Scalar F]

/-- The configuration field named after the axes `a` and `b`; the scale factor if they are equal. -/
def Accelerometer.factor (c : AccelerometerConfig F) : Axis → Axis → F
  | .x, .x => c.xScale | .x, .y => c.xy | .x, .z => c.xz
  | .y, .x => c.yx | .y, .y => c.yScale | .y, .z => c.yz
  | .z, .x => c.zx | .z, .y => c.zy | .z, .z => c.zScale

/-- The corrected sample on an axis. -/
def Accelerometer.read (g : Accelerometer F) : Axis → Res AhrsError F
  | .x => g.getX | .y => g.getY | .z => g.getZ

/-- Two configurations that differ at most in the factor named `ab`. -/
def Accelerometer.DifferOnlyIn (a b : Axis) (c d : AccelerometerConfig F) : Prop :=
  (∀ a' b', ¬ (a' = a ∧ b' = b) → Accelerometer.factor c a' b' = Accelerometer.factor d a' b') ∧
    c.xBias = d.xBias ∧ c.yBias = d.yBias ∧ c.zBias = d.zBias

end

section
variable {F : Type} [Scalar F] [ScalarLawful F]
open Accelerometer

/-- C67: the factor named `ab` acts on axis `b` only: two sensors whose configurations differ only in
that factor give the same corrected sample on the other two axes. -/
theorem C67_acc_target {a b : Axis} {c d : AccelerometerConfig F} {g h g' h' : Accelerometer F} {x y z : F}
    (hcd : DifferOnlyIn a b c d) (hg : Reachable g) (hh : Reachable h)
    (hc : getConfig g = .ok c) (hd : getConfig h = .ok d)
    (e1 : update x y z g = (.ok (), g')) (e2 : update x y z h = (.ok (), h')) {k : Axis} (hk : k ≠ b) :
    Accelerometer.read h' k = Accelerometer.read g' k := by
  obtain ⟨-, h1, h2, h3, -⟩ := C43_acc_formula hg hc e1
  obtain ⟨-, h4, h5, h6, -⟩ := C43_acc_formula hh hd e2
  obtain ⟨hf, b1, b2, b3⟩ := hcd
  have f : ∀ a', Accelerometer.factor c a' k = Accelerometer.factor d a' k := fun a' => hf a' k fun e => hk e.2
  have fx := f .x
  have fy := f .y
  have fz := f .z
  cases k
  · show getX h' = getX g'
    rw [h1, h4]; simp only [Accelerometer.factor] at fx fy fz
    simp only [corrX, fx, fy, fz, b1, b2, b3]
  · show getY h' = getY g'
    rw [h2, h5]; simp only [Accelerometer.factor] at fx fy fz
    simp only [corrY, fx, fy, fz, b1, b2, b3]
  · show getZ h' = getZ g'
    rw [h3, h6]; simp only [Accelerometer.factor] at fx fy fz
    simp only [corrZ, fx, fy, fz, b1, b2, b3]

end


section
variable {F : Type} [Scalar F]

/-- The configuration field named after the axes `a` and `b`; the scale factor if they are equal. -/
def Magnetometer.factor (c : MagnetometerConfig F) : Axis → Axis → F
  | .x, .x => c.xScale | .x, .y => c.xy | .x, .z => c.xz
  | .y, .x => c.yx | .y, .y => c.yScale | .y, .z => c.yz
  | .z, .x => c.zx | .z, .y => c.zy | .z, .z => c.zScale

/-- The corrected sample on an axis. -/
def Magnetometer.read (g : Magnetometer F) : Axis → Res AhrsError F
  | .x => g.getX | .y => g.getY | .z => g.getZ

/-- Two configurations that differ at most in the factor named `ab`. -/
def Magnetometer.DifferOnlyIn (a b : Axis) (c d : MagnetometerConfig F) : Prop :=
  (∀ a' b', ¬ (a' = a ∧ b' = b) → Magnetometer.factor c a' b' = Magnetometer.factor d a' b') ∧
    c.xBias = d.xBias ∧ c.yBias = d.yBias ∧ c.zBias = d.zBias

end

open Magnetometer in
/-- C67 is false for the magnetometer: changing only the factor named `xz` changes the corrected `y`
(and not the corrected `z`). -/
theorem C67_mag_false : ¬ ∀ {a b : Axis} {c d : MagnetometerConfig XQ} {g h g' h' : Magnetometer XQ}
    {x y z : XQ}, DifferOnlyIn a b c d → Reachable g → Reachable h →
    getConfig g = .ok c → getConfig h = .ok d → update x y z g = (.ok (), g') →
    update x y z h = (.ok (), h') → ∀ {k : Axis}, k ≠ b → Magnetometer.read h' k = Magnetometer.read g' k := by
  intro hall
  obtain ⟨g0, e, hi, h0, _⟩ := new_ok (F := XQ)
  let c : MagnetometerConfig XQ := .default
  let d : MagnetometerConfig XQ := { c with xz := .fin 1 }
  have hr0 : Reachable g0 := ⟨g0, e, .refl g0⟩
  have fin : ∀ d : MagnetometerConfig XQ, d = c ∨ d = { c with xz := .fin 1 } →
      ∀ x ∈ d.params, Finite x := by
    rintro _ (rfl | rfl) x hx
    · simp [MagnetometerConfig.params, c, MagnetometerConfig.default] at hx
      rcases hx with rfl | rfl <;> simp [Ext.finite_iff]
    · simp [MagnetometerConfig.params, c, MagnetometerConfig.default] at hx
      rcases hx with rfl | rfl | rfl | rfl <;> simp [Ext.finite_iff]
  have mk : ∀ d : MagnetometerConfig XQ, (∀ x ∈ d.params, Finite x) →
      ∃ g, init d g0 = (.ok (), g) ∧ Reachable g ∧ getConfig g = .ok d := by
    intro d hd
    have h1 := ((C44_mag_init (c := d) hr0).1).mpr ⟨hi, hd⟩
    have h2 : init d g0 = (.ok (), (init d g0).2) := Prod.ext h1 rfl
    exact ⟨_, h2, ⟨g0, e, .step (.init d) (.refl g0)⟩, C42_mag_init hr0 h2⟩
  obtain ⟨g, -, hg, hgc⟩ := mk c (fin c (.inl rfl))
  obtain ⟨h, -, hh, hhc⟩ := mk d (fin d (.inr rfl))
  obtain ⟨g', e1, -, hy, -⟩ := C43_mag_default hg hgc 1 0 0
  obtain ⟨d', h', hd', e2, -, hy2, -⟩ := C43_mag_exact hh (config_of hh hhc).1 (1 : ℚ) 0 0
  have hd2 : d'.xz = 1 ∧ d'.yScale = 1 ∧ d'.zx = 0 ∧ d'.xBias = 0 ∧ d'.yBias = 0 ∧ d'.zBias = 0 := by
    rw [hhc] at hd'
    have hd3 := Except.ok.inj hd'
    have inj : ∀ {a b : ℚ}, Ext.fin a = Ext.fin b → b = a := fun h => (Ext.fin.inj h).symm
    exact ⟨inj (congrArg MagnetometerConfig.xz hd3),
      inj ((Ext.lit_one (K := ℚ)).symm.trans (congrArg MagnetometerConfig.yScale hd3)),
      inj ((Ext.lit_zero (K := ℚ)).symm.trans (congrArg MagnetometerConfig.zx hd3)),
      inj ((Ext.lit_zero (K := ℚ)).symm.trans (congrArg MagnetometerConfig.xBias hd3)),
      inj ((Ext.lit_zero (K := ℚ)).symm.trans (congrArg MagnetometerConfig.yBias hd3)),
      inj ((Ext.lit_zero (K := ℚ)).symm.trans (congrArg MagnetometerConfig.zBias hd3))⟩
  have := hall (a := .x) (b := .z) (c := c) (d := d) ⟨by
      intro a' b' hn
      cases a' <;> cases b' <;> first | rfl | exact absurd ⟨rfl, rfl⟩ hn, rfl, rfl, rfl⟩
    hg hh hgc hhc e1 e2 (k := .y) (by decide)
  change getY h' = getY g' at this
  rw [hy, hy2] at this
  obtain ⟨i1, i2, i3, i4, i5, i6⟩ := hd2
  simp [i1, i2, i3, i4, i5, i6] at this

/-- The factor that couples sample axis `a` into corrected axis `b` of the magnetometer. -/
def Magnetometer.coupling : Axis → Axis → Axis × Axis
  | .y, .x => (.x, .y) | .x, .y => (.x, .z) | .z, .x => (.y, .x)
  | .x, .z => (.y, .z) | .z, .y => (.z, .x) | .y, .z => (.z, .y)
  | .x, .x => (.x, .x) | .y, .y => (.y, .y) | .z, .z => (.z, .z)

section
variable {F : Type} [Scalar F] [ScalarLawful F]
open Magnetometer

/-- C67: what the magnetometer does instead: the factor that carries axis `p` into axis `q` is the one
named `coupling p q`, and it acts on axis `q` only. -/
theorem C67_mag_target {p q : Axis} {c d : MagnetometerConfig F} {g h g' h' : Magnetometer F} {x y z : F}
    (hcd : DifferOnlyIn (coupling p q).1 (coupling p q).2 c d) (hg : Reachable g) (hh : Reachable h)
    (hc : getConfig g = .ok c) (hd : getConfig h = .ok d)
    (e1 : update x y z g = (.ok (), g')) (e2 : update x y z h = (.ok (), h')) {k : Axis} (hk : k ≠ q) :
    Magnetometer.read h' k = Magnetometer.read g' k := by
  obtain ⟨-, h1, h2, h3, -⟩ := C43_mag_formula hg hc e1
  obtain ⟨-, h4, h5, h6, -⟩ := C43_mag_formula hh hd e2
  obtain ⟨hf, b1, b2, b3⟩ := hcd
  have f : ∀ a', Magnetometer.factor c (coupling a' k).1 (coupling a' k).2 =
      Magnetometer.factor d (coupling a' k).1 (coupling a' k).2 := fun a' => hf _ _ fun e => hk (by
    revert e
    cases a' <;> cases k <;> cases p <;> cases q <;> decide)
  have fx := f .x
  have fy := f .y
  have fz := f .z
  cases k
  · show getX h' = getX g'
    rw [h1, h4]; simp only [Magnetometer.factor, coupling] at fx fy fz
    simp only [corrX, fx, fy, fz, b1, b2, b3]
  · show getY h' = getY g'
    rw [h2, h5]; simp only [Magnetometer.factor, coupling] at fx fy fz
    simp only [corrY, fx, fy, fz, b1, b2, b3]
  · show getZ h' = getZ g'
    rw [h3, h6]; simp only [Magnetometer.factor, coupling] at fx fy fz
    simp only [corrZ, fx, fy, fz, b1, b2, b3]

end

/-- A case of `C67_gyr_target`: `xy` goes to `y`. -/
example : (do
    let g ← (Gyrometer.new : Res AhrsError (Gyrometer XQ))
    let (r1, g1) := Gyrometer.init (F := XQ) { GyrometerConfig.default with xy := .fin 7 } g
    let (r2, g2) := Gyrometer.update (F := XQ) (.fin 1) (.fin 0) (.fin 0) g1
    r1
    r2
    .ok [← g2.getX, ← g2.getY, ← g2.getZ]) = .ok [.fin 1, .fin 7, .fin 0] := by
  decide +kernel

/-- A case of `C67_acc_target`: `zx` goes to `x`. -/
example : (do
    let g ← (Accelerometer.new : Res AhrsError (Accelerometer XQ))
    let (r1, g1) := Accelerometer.init (F := XQ) { AccelerometerConfig.default with zx := .fin 7 } g
    let (r2, g2) := Accelerometer.update (F := XQ) (.fin 0) (.fin 0) (.fin 1) g1
    r1
    r2
    .ok [← g2.getX, ← g2.getY, ← g2.getZ]) = .ok [.fin 7, .fin 0, .fin 1] := by
  decide +kernel

/-- A case of `C67_mag_target`: `yx` carries `z` into `x`. -/
example : (do
    let g ← (Magnetometer.new : Res AhrsError (Magnetometer XQ))
    let (r1, g1) := Magnetometer.init (F := XQ) { MagnetometerConfig.default with yx := .fin 7 } g
    let (r2, g2) := Magnetometer.update (F := XQ) (.fin 0) (.fin 0) (.fin 1) g1
    r1
    r2
    .ok [← g2.getX, ← g2.getY, ← g2.getZ]) = .ok [.fin 7, .fin 0, .fin 1] := by
  decide +kernel

end Verif
