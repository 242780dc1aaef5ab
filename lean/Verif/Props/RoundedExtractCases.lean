import Verif.Props.RoundedHughes
import Verif.Props.RoundedLup

/-
Cases in binary32 of the ways back from a matrix to a quaternion (C103).
-/

set_option linter.unusedSectionVars false
set_option linter.unusedSimpArgs false

namespace Verif
open Scalar Finset

/-- The four components that `op` returns for the matrix of a quaternion of literals. -/
def throughDcm (op : Mat F32 → Op LinalgError (Vec F32) Unit) (l : List ℚ) : Option (List F32) :=
  match Quat.convertToDcm (fvec l) with
  | .ok m => match op m (fvec [0, 0, 0, 0]) with
    | (.ok (), r) => some (contents 4 (.ok (), r))
    | _ => none
  | _ => none

/-- Norm one up to one in a million, for a quaternion of literals. -/
theorem near_of_literals {l : List ℚ} (hl : ∀ i, i < 4 → F32.fl (.fin (l.getD i 0)) = ⟨.fin (l.getD i 0)⟩)
    (hn : |l.getD 0 0 ^ 2 + l.getD 1 0 ^ 2 + l.getD 2 0 ^ 2 + l.getD 3 0 ^ 2 - 1| ≤ 19 / 10 ^ 7) :
    NearUnit (fun i => (lit (l.getD i 0) : F32)) := by
  unfold NearUnit qval
  rw [norm_mkQ, val_lit (hl 0 (by omega)), val_lit (hl 1 (by omega)), val_lit (hl 2 (by omega)), val_lit (hl 3 (by omega))]
  have hn' : |((l.getD 0 0 : ℚ) : ℝ) ^ 2 + (l.getD 1 0 : ℚ) ^ 2 + (l.getD 2 0 : ℚ) ^ 2 + (l.getD 3 0 : ℚ) ^ 2 - 1| ≤ 19 / 10 ^ 7 := by
    have : ((|l.getD 0 0 ^ 2 + l.getD 1 0 ^ 2 + l.getD 2 0 ^ 2 + l.getD 3 0 ^ 2 - 1| : ℚ) : ℝ) ≤ ((19 / 10 ^ 7 : ℚ) : ℝ) := by
      exact_mod_cast hn
    push_cast at this
    exact this
  obtain ⟨h1, h2⟩ := abs_le.mp hn'
  norm_num at h1 h2
  rw [abs_le]
  constructor
  · have : (1 - 1 / 10 ^ 6 : ℝ) ≤ √(((l.getD 0 0 : ℚ) : ℝ) ^ 2 + (l.getD 1 0 : ℚ) ^ 2 + (l.getD 2 0 : ℚ) ^ 2 + (l.getD 3 0 : ℚ) ^ 2) :=
      Real.le_sqrt_of_sq_le (by norm_num; linarith)
    linarith
  · have : √(((l.getD 0 0 : ℚ) : ℝ) ^ 2 + (l.getD 1 0 : ℚ) ^ 2 + (l.getD 2 0 : ℚ) ^ 2 + (l.getD 3 0 : ℚ) ^ 2) ≤ 1 + 1 / 10 ^ 6 :=
      Real.sqrt_le_iff.mpr ⟨by norm_num, by norm_num; linarith⟩
    linarith

/-- A case of C103: the quaternion (4/5, 3/5, 0, 0), rounded. -/
example : ∃ (a s : Vec F32) (f g : Nat → F32), VecIs s 4 g ∧ VecIs a 4 f ∧ (∀ i, i < 4 → Finite (f i)) ∧ NearUnit f ∧
    1 / 100 ≤ |⟪f 0⟫| ∧ 12 / 10 ^ 5 ≤ 4 * (1 - ⟪f 0⟫ ^ 2) ∧ ∀ i, 0 < i → i < 4 → ⟪f i⟫ ^ 2 ≤ 1 / 2 := by
  have hl : ∀ i, i < 4 → F32.fl (.fin (([13421773 / 2 ^ 24, 5033165 / 2 ^ 23, 0, 0] : List ℚ).getD i 0)) =
      ⟨.fin (([13421773 / 2 ^ 24, 5033165 / 2 ^ 23, 0, 0] : List ℚ).getD i 0)⟩ := by decide +kernel
  have ha : VecIs (fvec [13421773 / 2 ^ 24, 5033165 / 2 ^ 23, 0, 0]) 4 _ := Vec.of_is (fun i => (lit (([13421773 / 2 ^ 24, 5033165 / 2 ^ 23, 0, 0] : List ℚ).getD i 0) : F32))
    (by decide) (by decide)
  have hs : VecIs (fvec [0, 0, 0, 0]) 4 _ := Vec.of_is (fun i => (lit (([0, 0, 0, 0] : List ℚ).getD i 0) : F32))
    (by decide) (by decide)
  refine ⟨_, _, _, _, hs, ha,
    by decide +kernel, near_of_literals hl ?_, ?_, ?_, ?_⟩
  · norm_num [abs_of_pos, abs_of_neg]
  · rw [val_lit (hl 0 (by omega))]
    norm_num [abs_of_pos]
  · rw [val_lit (hl 0 (by omega))]
    norm_num
  · intro i h0 hi
    interval_cases i
    · rw [val_lit (hl 1 (by omega))]; norm_num
    · rw [val_lit (hl 2 (by omega))]; norm_num
    · rw [val_lit (hl 3 (by omega))]; norm_num

/-- A case of the small angle: a rotation about the second axis by 1/256. -/
example : ∃ (a s : Vec F32) (f g : Nat → F32), VecIs s 4 g ∧ VecIs a 4 f ∧ (∀ i, i < 4 → Finite (f i)) ∧ NearUnit f ∧
    4 * (1 - ⟪f 0⟫ ^ 2) ≤ 8 / 10 ^ 5 ∧ ⟪f 2⟫ = 1 / 512 := by
  have hl : ∀ i, i < 4 → F32.fl (.fin (([1 - 1 / 2 ^ 19, 0, 1 / 512, 0] : List ℚ).getD i 0)) =
      ⟨.fin (([1 - 1 / 2 ^ 19, 0, 1 / 512, 0] : List ℚ).getD i 0)⟩ := by decide +kernel
  have ha : VecIs (fvec [1 - 1 / 2 ^ 19, 0, 1 / 512, 0]) 4 _ := Vec.of_is (fun i => (lit (([1 - 1 / 2 ^ 19, 0, 1 / 512, 0] : List ℚ).getD i 0) : F32))
    (by decide) (by decide)
  have hs : VecIs (fvec [0, 0, 0, 0]) 4 _ := Vec.of_is (fun i => (lit (([0, 0, 0, 0] : List ℚ).getD i 0) : F32))
    (by decide) (by decide)
  refine ⟨_, _, _, _, hs, ha,
    by decide +kernel, near_of_literals hl ?_, ?_, ?_⟩
  · norm_num [abs_of_pos, abs_of_neg]
  · rw [val_lit (hl 0 (by omega))]
    norm_num
  · rw [val_lit (hl 2 (by omega))]
    norm_num

/-- C103: the half turn about the diagonal, as `normalize` gives it.  For exact unit half turns `hughes` has a
branch of its own, but rounding the trace misses it: the result is a quaternion of length 0.0002, with success.
`chiaverini` returns the identity. -/
theorem C103_half_turn :
    contents 4 (Vec.normalize (fvec [0, 1, 1, 1])) =
      [lit 0, lit (4843165 / 2 ^ 23), lit (4843165 / 2 ^ 23), lit (4843165 / 2 ^ 23)] ∧
    throughDcm Quat.hughes [0, 4843165 / 2 ^ 23, 4843165 / 2 ^ 23, 4843165 / 2 ^ 23] =
      some [lit (14529495 / 2 ^ 36), lit 0, lit 0, lit 0] ∧
    throughDcm Quat.chiaverini [0, 4843165 / 2 ^ 23, 4843165 / 2 ^ 23, 4843165 / 2 ^ 23] =
      some [lit 1, lit 0, lit 0, lit 0] := by decide +kernel

/-- C103: the error of `chiaverini` is the square root of a rounding error.  A component `2⁻¹⁸` comes back a hundred
times as large. -/
theorem C103_square_root :
    NearUnit (fun i => (lit (([1 - 3 / 2 ^ 23, 0, 1 / 2 ^ 18, 0] : List ℚ).getD i 0) : F32)) ∧
    throughDcm Quat.chiaverini [1 - 3 / 2 ^ 23, 0, 1 / 2 ^ 18, 0] =
      some [lit (1 - 1 / 2 ^ 24), lit 0, lit (1816187 / 2 ^ 32), lit 0] ∧ (110 : ℚ) / 2 ^ 18 < 1816187 / 2 ^ 32 :=
  ⟨near_of_literals (by decide +kernel) (by norm_num [abs_of_pos, abs_of_neg]), by decide +kernel, by norm_num⟩

end Verif
