import Verif.Rounded

/-
One more law of IEEE 754 binary32: the result of an operation is a multiple of the smallest subnormal number, so
it is zero or at least `2⁻¹⁴⁹` in size.  In particular a product with zero is zero.
-/

namespace Verif
open Scalar

/-- Results are on the grid of binary32. -/
class Grid (F : Type) [Scalar F] [R : Rounded F] : Prop where
  add_grid : ∀ {x y : F}, Finite x → Finite y → Finite (x +ᶠ y) → ⟪x +ᶠ y⟫ = 0 ∨ 1 / 2 ^ 149 ≤ |⟪x +ᶠ y⟫|
  sub_grid : ∀ {x y : F}, Finite x → Finite y → Finite (x -ᶠ y) → ⟪x -ᶠ y⟫ = 0 ∨ 1 / 2 ^ 149 ≤ |⟪x -ᶠ y⟫|
  mul_grid : ∀ {x y : F}, Finite x → Finite y → Finite (x *ᶠ y) → ⟪x *ᶠ y⟫ = 0 ∨ 1 / 2 ^ 149 ≤ |⟪x *ᶠ y⟫|
  div_grid : ∀ {x y : F}, Finite x → Finite y → ⟪y⟫ ≠ 0 → Finite (x /ᶠ y) → ⟪x /ᶠ y⟫ = 0 ∨ 1 / 2 ^ 149 ≤ |⟪x /ᶠ y⟫|

namespace F32

theorem roundPos_grid {x : ℚ} (hx : 0 < x) : roundPos x = 0 ∨ 1 / 2 ^ 149 ≤ roundPos x := by
  unfold roundPos
  have hu := ulp_pos x
  have hn : 0 ≤ nearest (x / ulp x) := nearest_nonneg (by positivity)
  rcases eq_or_lt_of_le hn with h | h
  · left
    rw [← h]
    simp
  · right
    have h1 : (1 : ℚ) ≤ nearest (x / ulp x) := by exact_mod_cast h
    have h2 : (1 : ℚ) / 2 ^ 149 ≤ ulp x := by
      unfold ulp
      rw [pow2_eq]
      calc (1 : ℚ) / 2 ^ 149 = 2 ^ (-149 : ℤ) := by norm_num
        _ ≤ _ := zpow_le_zpow_right₀ (by norm_num) (le_max_right _ _)
    calc (1 : ℚ) / 2 ^ 149 ≤ ulp x := h2
      _ = 1 * ulp x := (one_mul _).symm
      _ ≤ _ := by gcongr

theorem round_grid {x y : ℚ} (h : round x = .fin y) : y = 0 ∨ 1 / 2 ^ 149 ≤ |y| := by
  unfold round at h
  split at h
  · exact .inl (Ext.fin.inj h).symm
  · rename_i hne
    split at h
    · rename_i h0
      split at h
      · rw [← Ext.fin.inj h, abs_of_nonneg (roundPos_nonneg h0)]
        exact roundPos_grid h0
      · cases h
    · rename_i h0
      have hx : 0 < -x := by
        rcases lt_trichotomy x 0 with h | h | h
        · linarith
        · exact absurd h hne
        · exact absurd h h0
      split at h
      · rw [← Ext.fin.inj h, abs_neg, abs_of_nonneg (roundPos_nonneg hx), neg_eq_zero]
        exact roundPos_grid hx
      · cases h

theorem fl_grid (x : ℚ) (hf : Finite (fl (.fin x))) : toReal (fl (.fin x)) = 0 ∨ 1 / 2 ^ 149 ≤ |toReal (fl (.fin x))| := by
  obtain ⟨y, hy⟩ := finite_iff.mp hf
  have h : round x = .fin y := congrArg F32.val hy
  rw [hy, toReal_fin]
  rcases round_grid h with h | h
  · left
    exact_mod_cast h
  · right
    have : ((1 / 2 ^ 149 : ℚ) : ℝ) ≤ ((|y| : ℚ) : ℝ) := Rat.cast_le.mpr h
    push_cast at this
    exact this

instance : Grid F32 where
  add_grid := by
    intro x y hx hy hf
    obtain ⟨x, rfl⟩ := finite_iff.mp hx
    obtain ⟨y, rfl⟩ := finite_iff.mp hy
    rw [add_eq] at hf ⊢
    exact fl_grid _ hf
  sub_grid := by
    intro x y hx hy hf
    obtain ⟨x, rfl⟩ := finite_iff.mp hx
    obtain ⟨y, rfl⟩ := finite_iff.mp hy
    rw [sub_eq] at hf ⊢
    exact fl_grid _ hf
  mul_grid := by
    intro x y hx hy hf
    obtain ⟨x, rfl⟩ := finite_iff.mp hx
    obtain ⟨y, rfl⟩ := finite_iff.mp hy
    rw [mul_eq] at hf ⊢
    exact fl_grid _ hf
  div_grid := by
    intro x y hx hy h0 hf
    obtain ⟨x, rfl⟩ := finite_iff.mp hx
    obtain ⟨y, rfl⟩ := finite_iff.mp hy
    rw [div_eq _ (val_ne h0)] at hf ⊢
    exact fl_grid _ hf

end F32

section
variable {F : Type} [Scalar F] [R : Rounded F] [G : Grid F]

theorem zero_of_grid {v : ℝ} (h : v = 0 ∨ 1 / 2 ^ 149 ≤ |v|) (hn : Near v 0) : v = 0 := by
  rcases h with h | h
  · exact h
  · exfalso
    unfold Near rη at hn
    rw [sub_zero, abs_zero, mul_zero, zero_add] at hn
    have : (1 : ℝ) / 2 ^ 150 < 1 / 2 ^ 149 := by norm_num
    linarith

theorem mul_val_zero {x y : F} (hx : Finite x) (hy : Finite y) (h : ⟪x⟫ * ⟪y⟫ = 0) :
    Finite (x *ᶠ y) ∧ ⟪x *ᶠ y⟫ = 0 := by
  have hf : Finite (x *ᶠ y) := R.mul_finite hx hy (by rw [h]; norm_num)
  exact ⟨hf, zero_of_grid (G.mul_grid hx hy hf) (h ▸ R.mul_near hx hy hf)⟩

theorem add_val_zero {x y : F} (hx : Finite x) (hy : Finite y) (h : ⟪x⟫ + ⟪y⟫ = 0) :
    Finite (x +ᶠ y) ∧ ⟪x +ᶠ y⟫ = 0 := by
  have hf : Finite (x +ᶠ y) := R.add_finite hx hy (by rw [h]; norm_num)
  exact ⟨hf, zero_of_grid (G.add_grid hx hy hf) (h ▸ R.add_near hx hy hf)⟩

theorem sub_val_zero {x y : F} (hx : Finite x) (hy : Finite y) (h : ⟪x⟫ - ⟪y⟫ = 0) :
    Finite (x -ᶠ y) ∧ ⟪x -ᶠ y⟫ = 0 := by
  have hf : Finite (x -ᶠ y) := R.sub_finite hx hy (by rw [h]; norm_num)
  exact ⟨hf, zero_of_grid (G.sub_grid hx hy hf) (h ▸ R.sub_near hx hy hf)⟩

end
end Verif
