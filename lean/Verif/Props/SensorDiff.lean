import Verif.Props.Gyrometer
import Verif.Props.Accelerometer
import Verif.Props.Magnetometer

/-
A sample whose difference to the biases overflows (C45).
-/

namespace Verif
open Scalar

variable {F : Type} [Scalar F] [ScalarLawful F]

theorem VecIs.get_part {F : Type} [Scalar F] {v : Vec F} {n k i : Nat} {f g : Nat → F} (h : VecIs v n f) (hi : i < n) :
    (v.overwrite k g).getElement i = if i < k then .ok (g i) else v.getElement i := by
  have h4 : i < 4 := Nat.lt_of_lt_of_le hi h.le
  rw [Vec.getElement_eq (by exact h.init) (by simpa [h.rows_eq] using hi) h4,
    Vec.getElement_eq h.init (by simpa [h.rows_eq] using hi) h4]
  simp only [Vec.overwrite]
  split <;> rfl

section
open Gyrometer
variable {g : Gyrometer F} {c : GyrometerConfig F} {x y z : F}

/-- C45: when a difference of sample and bias overflows, the update is rejected; the corrected components before the
first such one read the difference, the others read as before. -/
theorem C45_gyr_difference (hg : Reachable g) (hc : getConfig g = .ok c) (hf : Finite x ∧ Finite y ∧ Finite z) {k : Nat}
    (hk : k < 3) (hd : ∀ i, i < k → Finite (seq3 (x -ᶠ c.xBias) (y -ᶠ c.yBias) (z -ᶠ c.zBias) i))
    (hb : ¬ Finite (seq3 (x -ᶠ c.xBias) (y -ᶠ c.yBias) (z -ᶠ c.zBias) k)) :
    ∃ g', update x y z g =
        (.error (.err (.LinalgError (valueErr (seq3 (x -ᶠ c.xBias) (y -ᶠ c.yBias) (z -ᶠ c.zBias) k)))), g') ∧
      getX g' = (if 0 < k then .ok (x -ᶠ c.xBias) else getX g) ∧
      getY g' = (if 1 < k then .ok (y -ᶠ c.yBias) else getY g) ∧ getZ g' = getZ g ∧ getConfig g' = .ok c := by
  obtain ⟨hi, r, q, hh, hp, hr, hq⟩ := Gyrometer.config_of hg hc
  obtain ⟨h1, e⟩ := Gyrometer.update_sample hh hi (forall_lt_three.mpr hf)
  have hsame : ∀ i, i < 3 → seq3 x y z i -ᶠ Gyrometer.param c (9 + i) = seq3 (x -ᶠ c.xBias) (y -ᶠ c.yBias) (z -ᶠ c.zBias) i :=
    forall_lt_three.mpr ⟨rfl, rfl, rfl⟩
  have e2 := Gyrometer.correct_diff h1 hk (fun i hik => by rw [hsame i (by omega)]; exact hd i hik) (by rw [hsame k hk]; exact hb)
  rw [hsame k hk] at e2
  have hget := fun i hik => hh.corrected.get_part (k := k) (i := i) (g := fun i => seq3 x y z i -ᶠ Gyrometer.param c (9 + i)) hik
  refine ⟨_, e.trans e2, ?_, ?_, ?_, ?_⟩
  · unfold getX
    simp only [hi, Bool.not_true, Bool.false_eq_true, if_false]
    rw [hget 0 (by omega)]
    split <;> rfl
  · unfold getY
    simp only [hi, Bool.not_true, Bool.false_eq_true, if_false]
    rw [hget 1 (by omega)]
    split <;> rfl
  · unfold getZ
    simp only [hi, Bool.not_true, Bool.false_eq_true, if_false]
    rw [hget 2 (by omega), if_neg (by omega)]
  · rw [← hc]
    unfold getConfig
    rfl

/-- A case, in binary32: the second difference overflows. -/
example : (do
    let g ← (new : Res AhrsError (Gyrometer F32))
    let (r1, g1) := init { GyrometerConfig.default with xBias := lit 1, yBias := lit (-(3 * 10 ^ 38)) } g
    let (r2, g2) := update (lit 3) (lit 0) (lit 7) g1
    let (r3, g3) := update (lit 5) (lit (3 * 10 ^ 38)) (lit 9) g2
    .ok ([r1, r2, r3], [← getX g2, ← getY g2, ← getZ g2, ← getX g3, ← getY g3, ← getZ g3])) =
    .ok ([.ok (), .ok (), .error (.err (.LinalgError (.UtilsError .Inf)))],
      [lit 2, lit (3 * 10 ^ 38), lit 7, lit 4, lit (3 * 10 ^ 38), lit 7]) := by
  decide +kernel

end

section
open Accelerometer
variable {g : Accelerometer F} {c : AccelerometerConfig F} {x y z : F}

/-- C45: when a difference of sample and bias overflows, the update is rejected; the corrected components before the
first such one read the difference, the others read as before. -/
theorem C45_acc_difference (hg : Reachable g) (hc : getConfig g = .ok c) (hf : Finite x ∧ Finite y ∧ Finite z) {k : Nat}
    (hk : k < 3) (hd : ∀ i, i < k → Finite (seq3 (x -ᶠ c.xBias) (y -ᶠ c.yBias) (z -ᶠ c.zBias) i))
    (hb : ¬ Finite (seq3 (x -ᶠ c.xBias) (y -ᶠ c.yBias) (z -ᶠ c.zBias) k)) :
    ∃ g', update x y z g =
        (.error (.err (.LinalgError (valueErr (seq3 (x -ᶠ c.xBias) (y -ᶠ c.yBias) (z -ᶠ c.zBias) k)))), g') ∧
      getX g' = (if 0 < k then .ok (x -ᶠ c.xBias) else getX g) ∧
      getY g' = (if 1 < k then .ok (y -ᶠ c.yBias) else getY g) ∧ getZ g' = getZ g ∧ getConfig g' = .ok c := by
  obtain ⟨hi, r, q, hh, hp, hr, hq⟩ := Accelerometer.config_of hg hc
  obtain ⟨h1, e⟩ := Accelerometer.update_sample hh hi (forall_lt_three.mpr hf)
  have hsame : ∀ i, i < 3 → seq3 x y z i -ᶠ Accelerometer.param c (9 + i) = seq3 (x -ᶠ c.xBias) (y -ᶠ c.yBias) (z -ᶠ c.zBias) i :=
    forall_lt_three.mpr ⟨rfl, rfl, rfl⟩
  have e2 := Accelerometer.correct_diff h1 hk (fun i hik => by rw [hsame i (by omega)]; exact hd i hik) (by rw [hsame k hk]; exact hb)
  rw [hsame k hk] at e2
  have hget := fun i hik => hh.corrected.get_part (k := k) (i := i) (g := fun i => seq3 x y z i -ᶠ Accelerometer.param c (9 + i)) hik
  refine ⟨_, e.trans e2, ?_, ?_, ?_, ?_⟩
  · unfold getX
    simp only [hi, Bool.not_true, Bool.false_eq_true, if_false]
    rw [hget 0 (by omega)]
    split <;> rfl
  · unfold getY
    simp only [hi, Bool.not_true, Bool.false_eq_true, if_false]
    rw [hget 1 (by omega)]
    split <;> rfl
  · unfold getZ
    simp only [hi, Bool.not_true, Bool.false_eq_true, if_false]
    rw [hget 2 (by omega), if_neg (by omega)]
  · rw [← hc]
    unfold getConfig
    rfl

/-- A case, in binary32: the second difference overflows. -/
example : (do
    let g ← (new : Res AhrsError (Accelerometer F32))
    let (r1, g1) := init { AccelerometerConfig.default with xBias := lit 1, yBias := lit (-(3 * 10 ^ 38)) } g
    let (r2, g2) := update (lit 3) (lit 0) (lit 7) g1
    let (r3, g3) := update (lit 5) (lit (3 * 10 ^ 38)) (lit 9) g2
    .ok ([r1, r2, r3], [← getX g2, ← getY g2, ← getZ g2, ← getX g3, ← getY g3, ← getZ g3])) =
    .ok ([.ok (), .ok (), .error (.err (.LinalgError (.UtilsError .Inf)))],
      [lit 2, lit (3 * 10 ^ 38), lit 7, lit 4, lit (3 * 10 ^ 38), lit 7]) := by
  decide +kernel

end

section
open Magnetometer
variable {g : Magnetometer F} {c : MagnetometerConfig F} {x y z : F}

/-- C45: when a difference of sample and bias overflows, the update is rejected; the corrected components before the
first such one read the difference, the others read as before. -/
theorem C45_mag_difference (hg : Reachable g) (hc : getConfig g = .ok c) (hf : Finite x ∧ Finite y ∧ Finite z) {k : Nat}
    (hk : k < 3) (hd : ∀ i, i < k → Finite (seq3 (x -ᶠ c.xBias) (y -ᶠ c.yBias) (z -ᶠ c.zBias) i))
    (hb : ¬ Finite (seq3 (x -ᶠ c.xBias) (y -ᶠ c.yBias) (z -ᶠ c.zBias) k)) :
    ∃ g', update x y z g =
        (.error (.err (.LinalgError (valueErr (seq3 (x -ᶠ c.xBias) (y -ᶠ c.yBias) (z -ᶠ c.zBias) k)))), g') ∧
      getX g' = (if 0 < k then .ok (x -ᶠ c.xBias) else getX g) ∧
      getY g' = (if 1 < k then .ok (y -ᶠ c.yBias) else getY g) ∧ getZ g' = getZ g ∧ getConfig g' = .ok c := by
  obtain ⟨hi, r, q, hh, hp, hr, hq⟩ := Magnetometer.config_of hg hc
  obtain ⟨h1, e⟩ := Magnetometer.update_sample hh hi (forall_lt_three.mpr hf)
  have hsame : ∀ i, i < 3 → seq3 x y z i -ᶠ Magnetometer.param c (9 + i) = seq3 (x -ᶠ c.xBias) (y -ᶠ c.yBias) (z -ᶠ c.zBias) i :=
    forall_lt_three.mpr ⟨rfl, rfl, rfl⟩
  have e2 := Magnetometer.correct_diff h1 hk (fun i hik => by rw [hsame i (by omega)]; exact hd i hik) (by rw [hsame k hk]; exact hb)
  rw [hsame k hk] at e2
  have hget := fun i hik => hh.corrected.get_part (k := k) (i := i) (g := fun i => seq3 x y z i -ᶠ Magnetometer.param c (9 + i)) hik
  refine ⟨_, e.trans e2, ?_, ?_, ?_, ?_⟩
  · unfold getX
    simp only [hi, Bool.not_true, Bool.false_eq_true, if_false]
    rw [hget 0 (by omega)]
    split <;> rfl
  · unfold getY
    simp only [hi, Bool.not_true, Bool.false_eq_true, if_false]
    rw [hget 1 (by omega)]
    split <;> rfl
  · unfold getZ
    simp only [hi, Bool.not_true, Bool.false_eq_true, if_false]
    rw [hget 2 (by omega), if_neg (by omega)]
  · rw [← hc]
    unfold getConfig
    rfl

/-- A case, in binary32: the second difference overflows. -/
example : (do
    let g ← (new : Res AhrsError (Magnetometer F32))
    let (r1, g1) := init { MagnetometerConfig.default with xBias := lit 1, yBias := lit (-(3 * 10 ^ 38)) } g
    let (r2, g2) := update (lit 3) (lit 0) (lit 7) g1
    let (r3, g3) := update (lit 5) (lit (3 * 10 ^ 38)) (lit 9) g2
    .ok ([r1, r2, r3], [← getX g2, ← getY g2, ← getZ g2, ← getX g3, ← getY g3, ← getZ g3])) =
    .ok ([.ok (), .ok (), .error (.err (.LinalgError (.UtilsError .Inf)))],
      [lit 2, lit (3 * 10 ^ 38), lit 7, lit 4, lit (3 * 10 ^ 38), lit 7]) := by
  decide +kernel

end

end Verif
