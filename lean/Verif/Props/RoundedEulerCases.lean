import Verif.Props.RoundedEuler
import Verif.Props.RoundedExtractCases

/-
Cases in binary32 of the Euler angles (C104).
-/

set_option linter.unusedSectionVars false
set_option linter.unusedSimpArgs false

namespace Verif
open Scalar Finset

theorem F32A.val_lit {k : ℚ} (hk : F32.fl (.fin k) = ⟨.fin k⟩) : ⟪(lit k : F32A)⟫ = (k : ℝ) := Verif.val_lit hk

/-- A vector of literals. -/
noncomputable def avec (l : List ℚ) : Vec F32A := Vec.of l.length (fun i => (lit (l.getD i 0) : F32A))

/-- A case of `C104_euler`: the quaternion (4/5, 3/5, 0, 0), rounded. -/
example : ∃ (a : Vec F32A) (f : Nat → F32A), VecIs a 4 f ∧ (∀ i, i < 4 → Finite (f i)) ∧ NearUnit f ∧
    |2 * (⟪f 0⟫ * ⟪f 2⟫ - ⟪f 3⟫ * ⟪f 1⟫)| ≤ 99999 / 100000 := by
  have hl : ∀ i, i < 4 → F32.fl (.fin (([13421773 / 2 ^ 24, 5033165 / 2 ^ 23, 0, 0] : List ℚ).getD i 0)) =
      ⟨.fin (([13421773 / 2 ^ 24, 5033165 / 2 ^ 23, 0, 0] : List ℚ).getD i 0)⟩ := by decide +kernel
  have ha : VecIs (avec [13421773 / 2 ^ 24, 5033165 / 2 ^ 23, 0, 0]) 4 _ :=
    Vec.of_is (fun i => (lit (([13421773 / 2 ^ 24, 5033165 / 2 ^ 23, 0, 0] : List ℚ).getD i 0) : F32A)) (by decide) (by decide)
  refine ⟨_, _, ha, ?_, near_of_literals hl ?_, ?_⟩
  · show ∀ i, i < 4 → Finite (lit (([13421773 / 2 ^ 24, 5033165 / 2 ^ 23, 0, 0] : List ℚ).getD i 0) : F32)
    decide +kernel
  · norm_num [abs_of_pos, abs_of_neg]
  · rw [F32A.val_lit (hl 0 (by omega)), F32A.val_lit (hl 1 (by omega)), F32A.val_lit (hl 2 (by omega)), F32A.val_lit (hl 3 (by omega))]
    norm_num

/-- C104: a pitch of a quarter turn, as `normalize` gives it: the norm is one up to one in a million, `convert_to_euler`
answers `Ok`, and the pitch is not a number. -/
theorem C104_quarter_turn :
    contents 4 (Vec.normalize (fvec [3, 0, 3, 0])) = [lit (2965821 / 2 ^ 22), lit 0, lit (2965821 / 2 ^ 22), lit 0] ∧
    NearUnit (fun i => (lit (([2965821 / 2 ^ 22, 0, 2965821 / 2 ^ 22, 0] : List ℚ).getD i 0) : F32A)) ∧
    ∃ x y z : F32A, Quat.convertToEuler (avec [2965821 / 2 ^ 22, 0, 2965821 / 2 ^ 22, 0]) = .ok (x, y, z) ∧ Scalar.isNaN y = true := by
  have ha : VecIs (avec [2965821 / 2 ^ 22, 0, 2965821 / 2 ^ 22, 0]) 4 _ :=
    Vec.of_is (fun i => (lit (([2965821 / 2 ^ 22, 0, 2965821 / 2 ^ 22, 0] : List ℚ).getD i 0) : F32A)) (by decide) (by decide)
  have e : (lit 2 *ᶠ ((lit (2965821 / 2 ^ 22) : F32) *ᶠ lit (2965821 / 2 ^ 22) -ᶠ lit 0 *ᶠ lit 0)) = ⟨.fin (8388609 / 8388608)⟩ := by
    decide +kernel
  refine ⟨by decide +kernel, near_of_literals (by decide +kernel) (by norm_num [abs_of_pos, abs_of_neg]), C104_nan ha ?_ ?_⟩
  · show Finite (lit 2 *ᶠ ((lit (2965821 / 2 ^ 22) : F32) *ᶠ lit (2965821 / 2 ^ 22) -ᶠ lit 0 *ᶠ lit 0))
    decide +kernel
  · show 1 < |F32.toReal (lit 2 *ᶠ ((lit (2965821 / 2 ^ 22) : F32) *ᶠ lit (2965821 / 2 ^ 22) -ᶠ lit 0 *ᶠ lit 0))|
    rw [e, F32.toReal_fin]
    norm_num [abs_of_pos]

end Verif
