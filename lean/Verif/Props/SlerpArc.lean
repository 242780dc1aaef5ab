import Verif.Props.Norms

/-
C32: `slerp` moves along the arc between its end points with constant speed.
-/

namespace Verif
open Scalar Finset

variable {s t v w : Vec XR} {n : Nat} {f0 f1 : Nat → XR} {x y : Nat → ℝ} {α β : ℝ}

/-- The trigonometric identity behind it. -/
theorem arc_identity (θ B D : ℝ) :
    Real.sin (θ - B) * Real.sin (θ - D) + Real.sin B * Real.sin D +
      (Real.sin (θ - B) * Real.sin D + Real.sin B * Real.sin (θ - D)) * Real.cos θ =
      Real.cos (B - D) * Real.sin θ ^ 2 := by
  rw [Real.sin_sub, Real.sin_sub, Real.cos_sub]
  have h := Real.sin_sq_add_cos_sq θ
  linear_combination -(Real.sin B * Real.sin D) * h

/-- C32: `slerp` moves with constant speed. The results for `alpha` and `beta` lie in the plane of the
end points, between them, and make the angle `(alpha - beta) * theta`, where `theta` is the angle of the
end points. -/
theorem C32_speed (hs : VecIs s n f0) (ht : VecIs t n f1) (hv : VecIs v n (fun i => .fin (x i)))
    (hw : VecIs w n (fun i => .fin (y i))) (h0 : 0 ≤ α) (h1 : α ≤ 1) (k0 : 0 ≤ β) (k1 : β ≤ 1)
    (hx : norm2 n x = 1) (hy : norm2 n y = 1) (hne : ∃ i, i < n ∧ x i ≠ y i)
    (hno : ∃ i, i < n ∧ x i ≠ - y i) :
    ∃ s' t' z u, Vec.slerp v w (.fin α) s = (.ok (), s') ∧ VecIs s' n (fun i => .fin (z i)) ∧
      Vec.slerp v w (.fin β) t = (.ok (), t') ∧ VecIs t' n (fun i => .fin (u i)) ∧
      norm2 n z = 1 ∧ norm2 n u = 1 ∧
      (∃ a b, 0 ≤ a ∧ 0 ≤ b ∧ ∀ i, z i = a * x i + b * y i) ∧
      ∑ i ∈ range n, z i * u i = Real.cos ((α - β) * Real.arccos (∑ i ∈ range n, x i * y i)) := by
  have hd := dot_lt hx hy hne hno
  obtain ⟨hsin, s', e, h⟩ := slerp_run hs hv hw h0 h1 hd rfl
  obtain ⟨-, t', e', h'⟩ := slerp_run ht hv hw k0 k1 hd rfl
  have θ0 := Real.arccos_nonneg (∑ i ∈ range n, x i * y i)
  have θ1 := Real.arccos_le_pi (∑ i ∈ range n, x i * y i)
  have hcos : ∑ i ∈ range n, x i * y i = Real.cos (Real.arccos (∑ i ∈ range n, x i * y i)) := by
    rw [Real.cos_arccos hd.1.le hd.2.le]
  generalize Real.arccos (∑ i ∈ range n, x i * y i) = θ at *
  have hX := norm2_one hx
  have hY := norm2_one hy
  have key : ∀ a b : ℝ, ∑ i ∈ range n, (Real.sin ((1 - a) * θ) * x i + Real.sin (a * θ) * y i) / Real.sin θ *
      ((Real.sin ((1 - b) * θ) * x i + Real.sin (b * θ) * y i) / Real.sin θ) = Real.cos ((a - b) * θ) := by
    intro a b
    have e1 : ∑ i ∈ range n, (Real.sin ((1 - a) * θ) * x i + Real.sin (a * θ) * y i) / Real.sin θ *
        ((Real.sin ((1 - b) * θ) * x i + Real.sin (b * θ) * y i) / Real.sin θ) =
        (Real.sin ((1 - a) * θ) * Real.sin ((1 - b) * θ) * ∑ i ∈ range n, x i ^ 2 +
          Real.sin (a * θ) * Real.sin (b * θ) * ∑ i ∈ range n, y i ^ 2 +
          (Real.sin ((1 - a) * θ) * Real.sin (b * θ) + Real.sin (a * θ) * Real.sin ((1 - b) * θ)) *
            ∑ i ∈ range n, x i * y i) / Real.sin θ ^ 2 := by
      rw [Finset.mul_sum, Finset.mul_sum, Finset.mul_sum, ← Finset.sum_add_distrib,
        ← Finset.sum_add_distrib, Finset.sum_div]
      exact Finset.sum_congr rfl fun i _ => by field_simp; ring
    rw [e1, hX, hY, hcos, mul_one, mul_one, div_eq_iff (pow_ne_zero 2 hsin.ne'),
      show (1 - a) * θ = θ - a * θ by ring, show (1 - b) * θ = θ - b * θ by ring,
      show (a - b) * θ = a * θ - b * θ by ring]
    exact arc_identity θ (a * θ) (b * θ)
  have unit : ∀ a : ℝ, norm2 n (fun i => (Real.sin ((1 - a) * θ) * x i + Real.sin (a * θ) * y i) /
      Real.sin θ) = 1 := by
    intro a
    have := key a a
    rw [sub_self, zero_mul, Real.cos_zero] at this
    rw [norm2, Real.sqrt_eq_one]
    refine Eq.trans ?_ this
    exact Finset.sum_congr rfl fun i _ => by ring
  refine ⟨s', t', _, _, e, h, e', h', unit α, unit β,
    ⟨Real.sin ((1 - α) * θ) / Real.sin θ, Real.sin (α * θ) / Real.sin θ, ?_, ?_, fun i => by ring⟩, key α β⟩
  · exact div_nonneg (Real.sin_nonneg_of_nonneg_of_le_pi (by nlinarith) (by nlinarith)) hsin.le
  · exact div_nonneg (Real.sin_nonneg_of_nonneg_of_le_pi (by nlinarith) (by nlinarith)) hsin.le

/-- A third and two thirds of the way from `(1, 0)` to `(0, 1)` are 30° apart. -/
example : ∃ (s' t' : Vec XR) (z u : Nat → ℝ), Vec.slerp (Vec.of 2 (fun i => .fin (if i = 0 then 1 else 0)))
      (Vec.of 2 (fun i => .fin (if i = 0 then 0 else 1))) (.fin (1 / 3)) (Vec.zeros 2 : Vec XR) = (.ok (), s') ∧
      VecIs s' 2 (fun i => .fin (z i)) ∧
      Vec.slerp (Vec.of 2 (fun i => .fin (if i = 0 then 1 else 0)))
      (Vec.of 2 (fun i => .fin (if i = 0 then 0 else 1))) (.fin (2 / 3)) (Vec.zeros 2 : Vec XR) = (.ok (), t') ∧
      VecIs t' 2 (fun i => .fin (u i)) ∧ ∑ i ∈ range 2, z i * u i = √3 / 2 := by
  obtain ⟨s', t', z, u, h1, h2, h3, h4, -, -, -, h5⟩ := C32_speed (α := 1 / 3) (β := 2 / 3)
    (x := fun i => if i = 0 then 1 else 0) (y := fun i => if i = 0 then 0 else 1)
    (Vec.zeros_is (n := 2) (by decide) (by decide)) (Vec.zeros_is (n := 2) (by decide) (by decide))
    (Vec.of_is (n := 2) (fun i => Ext.fin (if i = 0 then (1 : ℝ) else 0)) (by decide) (by decide))
    (Vec.of_is (n := 2) (fun i => Ext.fin (if i = 0 then (0 : ℝ) else 1)) (by decide) (by decide))
    (by norm_num) (by norm_num) (by norm_num) (by norm_num) (by simp [norm2])
    (by simp [norm2, Finset.sum_range_succ]) ⟨0, by decide, by norm_num⟩ ⟨0, by decide, by norm_num⟩
  refine ⟨s', t', z, u, h1, h2, h3, h4, h5.trans ?_⟩
  have : ∑ i ∈ range 2, (if i = 0 then (1 : ℝ) else 0) * (if i = 0 then (0 : ℝ) else 1) = 0 := by
    simp [Finset.sum_range_succ]
  rw [this, Real.arccos_zero, ← Real.cos_pi_div_six, ← Real.cos_neg]
  congr 1
  ring

end Verif
