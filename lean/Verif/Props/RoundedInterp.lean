import Verif.Props.RoundedEuler
import Verif.Props.Norms
import Verif.Props.RoundedQr
import Verif.Props.Rounding

/-
Interpolation in binary32 (C105).
-/

set_option linter.unusedSectionVars false
set_option linter.unusedSimpArgs false

namespace Verif
open Scalar Finset

/-- What is assumed of `acosf`: on [-1, 1] a finite result within `2⁻²¹` of the exact one. -/
class Acos (F : Type) [Scalar F] [Rounded F] : Prop where
  acos_near : ∀ {x : F}, Finite x → |⟪x⟫| ≤ 1 → Finite (Scalar.acos x) ∧ |⟪Scalar.acos x⟫ - Real.arccos ⟪x⟫| ≤ 1 / 2 ^ 21

variable {F : Type} [Scalar F] [R : Rounded F]

/-! ### `lerp` -/

theorem alpha_ok {α : F} (hα : Finite α) (h0 : 0 ≤ ⟪α⟫) (h1 : ⟪α⟫ ≤ 1) : Utils.inRange α (lit 0) (lit 1) = true := by
  refine inRange_ok ?_ ?_
  · rw [R.le_val R.zero_finite hα, R.zero_val]; exact h0
  · rw [R.le_val hα R.one_finite, R.one_val]; exact h1

/-- `1 - α`. -/
theorem rest_near {α : F} (hα : Finite α) (h0 : 0 ≤ ⟪α⟫) (h1 : ⟪α⟫ ≤ 1) :
    Finite (lit 1 -ᶠ α) ∧ |⟪lit 1 -ᶠ α⟫ - (1 - ⟪α⟫)| ≤ (1 - ⟪α⟫) / 16777216 + rη := by
  have hb : |⟪(lit 1 : F)⟫ - ⟪α⟫| ≤ 2 ^ 127 := by
    rw [R.one_val, abs_of_nonneg (by linarith)]
    norm_num
    linarith
  have hf := R.sub_finite R.one_finite hα hb
  have := (R.sub_near R.one_finite hα hf).bound
  rw [R.one_val, abs_of_nonneg (a := 1 - ⟪α⟫) (by linarith)] at this
  exact ⟨hf, this⟩

/-- One product of `lerp`: `x` times a factor within one rounding of `a`. -/
theorem lerp_term {x c : F} {a : ℝ} (hx : Finite x) (hc : Finite c) (hX : |⟪x⟫| ≤ 2 ^ 120) (a0 : 0 ≤ a) (a1 : a ≤ 1)
    (h : |⟪c⟫ - a| ≤ a / 16777216 + rη) : Finite (x *ᶠ c) ∧
      |⟪x *ᶠ c⟫ - a * ⟪x⟫| ≤ 5 / 2 * (a * |⟪x⟫|) / 16777216 + (2 * |⟪x⟫| + 1) * rη := by
  have hη := rη_le
  have hη0 := rη_pos
  have hX0 := abs_nonneg ⟪x⟫
  have hcb : |⟪c⟫| ≤ a + (a / 16777216 + rη) := le_of_dist (abs_of_nonneg a0).le h
  have hp : |⟪x⟫ * ⟪c⟫| ≤ |⟪x⟫| * (a + (a / 16777216 + rη)) := by
    rw [abs_mul]
    exact mul_le_mul_of_nonneg_left hcb hX0
  have hf := R.mul_finite hx hc (hp.trans (by
    calc |⟪x⟫| * (a + (a / 16777216 + rη)) ≤ 2 ^ 120 * 2 := mul_le_mul hX (by linarith) (by positivity) (by norm_num)
      _ ≤ _ := by norm_num))
  refine ⟨hf, ?_⟩
  have h1 := (R.mul_near hx hc hf).bound
  have h2 : |⟪x⟫ * ⟪c⟫ - a * ⟪x⟫| ≤ |⟪x⟫| * (a / 16777216 + rη) := by
    rw [show ⟪x⟫ * ⟪c⟫ - a * ⟪x⟫ = ⟪x⟫ * (⟪c⟫ - a) by ring, abs_mul]
    exact mul_le_mul_of_nonneg_left h hX0
  refine (dist_trans h1 h2).trans ?_
  have h3 : 0 ≤ a * |⟪x⟫| := mul_nonneg a0 hX0
  have h4 : 0 ≤ |⟪x⟫| * rη := mul_nonneg hX0 hη0.le
  linarith

theorem alpha_near {α : F} (h0 : 0 ≤ ⟪α⟫) : |⟪α⟫ - ⟪α⟫| ≤ ⟪α⟫ / 16777216 + rη := by
  have := rη_pos
  rw [sub_self, abs_zero]
  positivity

/-- One element of `lerp`. -/
theorem lerp_element {x y α : F} (hx : Finite x) (hy : Finite y) (hX : |⟪x⟫| ≤ 2 ^ 120) (hY : |⟪y⟫| ≤ 2 ^ 120)
    (hα : Finite α) (h0 : 0 ≤ ⟪α⟫) (h1 : ⟪α⟫ ≤ 1) :
    Finite (x *ᶠ (lit 1 -ᶠ α)) ∧ Finite (y *ᶠ α) ∧ Finite ((x *ᶠ (lit 1 -ᶠ α)) +ᶠ (y *ᶠ α)) ∧
    |⟪(x *ᶠ (lit 1 -ᶠ α)) +ᶠ (y *ᶠ α)⟫ - ((1 - ⟪α⟫) * ⟪x⟫ + ⟪α⟫ * ⟪y⟫)| ≤
      4 / 2 ^ 24 * ((1 - ⟪α⟫) * |⟪x⟫| + ⟪α⟫ * |⟪y⟫|) + (3 * (|⟪x⟫| + |⟪y⟫|) + 4) / 2 ^ 149 := by
  have hη0 := rη_pos
  have hηe : rη ≤ 1 / 2 ^ 149 := by unfold rη; norm_num
  obtain ⟨c1, c2⟩ := rest_near hα h0 h1
  obtain ⟨f1, e1⟩ := lerp_term hx c1 hX (by linarith) (by linarith) c2
  obtain ⟨f2, e2⟩ := lerp_term hy hα hY h0 h1 (alpha_near h0)
  have hX0 := abs_nonneg ⟪x⟫
  have hY0 := abs_nonneg ⟪y⟫
  have p1 : 0 ≤ (1 - ⟪α⟫) * |⟪x⟫| := mul_nonneg (by linarith) hX0
  have p2 : 0 ≤ ⟪α⟫ * |⟪y⟫| := mul_nonneg h0 hY0
  have q1 : (1 - ⟪α⟫) * |⟪x⟫| ≤ |⟪x⟫| := mul_le_of_le_one_left hX0 (by linarith)
  have q2 : ⟪α⟫ * |⟪y⟫| ≤ |⟪y⟫| := mul_le_of_le_one_left hY0 h1
  have e3 := (abs_add_le _ _).trans (add_le_add e1 e2)
  rw [← add_sub_add_comm] at e3
  have e4 : |(1 - ⟪α⟫) * ⟪x⟫ + ⟪α⟫ * ⟪y⟫| ≤ (1 - ⟪α⟫) * |⟪x⟫| + ⟪α⟫ * |⟪y⟫| := by
    refine (abs_add_le _ _).trans (le_of_eq ?_)
    rw [abs_mul, abs_mul, abs_of_nonneg h0, abs_of_nonneg (a := 1 - ⟪α⟫) (by linarith)]
  have e5 := le_of_dist e4 e3
  have r1 : (2 * |⟪x⟫| + 1) * rη ≤ (2 * |⟪x⟫| + 1) * (1 / 2 ^ 149) := mul_le_mul_of_nonneg_left hηe (by linarith)
  have r2 : (2 * |⟪y⟫| + 1) * rη ≤ (2 * |⟪y⟫| + 1) * (1 / 2 ^ 149) := mul_le_mul_of_nonneg_left hηe (by linarith)
  generalize hP : (1 - ⟪α⟫) * |⟪x⟫| = P at *
  generalize hQ : ⟪α⟫ * |⟪y⟫| = Q at *
  have hf := R.add_finite f1 f2 (e5.trans (by norm_num at *; linarith))
  refine ⟨f1, f2, hf, ?_⟩
  have e6 := (R.add_near f1 f2 hf).bound
  refine (dist_trans e6 e3).trans ?_
  norm_num at *
  linarith

/-- C105: `lerp` in binary32 is within four units of round-off of the convex combination. -/
theorem C105_lerp {s v w : Vec F} {n : Nat} {f0 f g : Nat → F} {α : F} (hs : VecIs s n f0) (hv : VecIs v n f)
    (hw : VecIs w n g) (hf : ∀ i, i < n → Finite (f i) ∧ |⟪f i⟫| ≤ 2 ^ 120)
    (hg : ∀ i, i < n → Finite (g i) ∧ |⟪g i⟫| ≤ 2 ^ 120) (hα : Finite α) (h0 : 0 ≤ ⟪α⟫) (h1 : ⟪α⟫ ≤ 1) :
    ∃ s' h, Vec.lerp v w α s = (.ok (), s') ∧ VecIs s' n h ∧ ∀ i, i < n → Finite (h i) ∧
      |⟪h i⟫ - ((1 - ⟪α⟫) * ⟪f i⟫ + ⟪α⟫ * ⟪g i⟫)| ≤
        4 / 2 ^ 24 * ((1 - ⟪α⟫) * |⟪f i⟫| + ⟪α⟫ * |⟪g i⟫|) + (3 * (|⟪f i⟫| + |⟪g i⟫|) + 4) / 2 ^ 149 := by
  have k := fun i hi => lerp_element (hf i hi).1 (hg i hi).1 (hf i hi).2 (hg i hi).2 hα h0 h1
  unfold Vec.lerp
  simp only [alpha_ok hα h0 h1, Bool.not_true, Bool.false_eq_true, if_false, Op.get_bind,
    hs.sameSize hv, hs.sameSize hw, hs.rows, Op.liftOk_bind]
  obtain ⟨s', e, h⟩ := interp_ok (c := lit 1 -ᶠ α) (d := α) hs hv hw (fun i hi => (hf i hi).1) (fun i hi => (hg i hi).1)
    (fun i hi => (k i hi).1) (fun i hi => (k i hi).2.1) (fun i hi => (k i hi).2.2.1)
  exact ⟨s', _, e, h, fun i hi => (k i hi).2.2⟩

/-! ### `slerp` -/

/-- The computed angle. -/
theorem slerp_angle [Acos F] {D : F} {d S : ℝ} (hD : Apx D d (8 / 10 ^ 7)) (hS : S = √(1 - d ^ 2)) (h : 1 / 50 ≤ S) :
    Apx (Scalar.acos D) (Real.arccos d) (31 / 10 ^ 7 / S) := by
  have hS0 : 0 < S := by linarith
  have hS2 : S ^ 2 = 1 - d ^ 2 := by
    rw [hS]
    refine Real.sq_sqrt ?_
    by_contra hn
    rw [hS, Real.sqrt_eq_zero_of_nonpos (not_le.mp hn).le] at hS0
    exact lt_irrefl _ hS0
  have hS1 : S ≤ 1 := by nlinarith [sq_nonneg d]
  have hd : |d| ≤ 1 - 1 / 10 ^ 4 := by
    have h4 : 1 / 2500 ≤ S ^ 2 := by nlinarith
    exact abs_le_of_sq_le_sq (by norm_num; linarith) (by norm_num)
  have hDb := hD.le hd
  obtain ⟨k1, k2⟩ := Acos.acos_near hD.1 (hDb.trans (by norm_num))
  have hp := arcsin_perturb (hd.trans_lt (by norm_num)) (hDb.trans (by norm_num)) hD.2
  rw [← hS] at hp
  refine ⟨k1, ?_⟩
  have e : |Real.arccos ⟪D⟫ - Real.arccos d| ≤ Real.pi * (8 / 10 ^ 7) / S := by
    rw [Real.arccos, Real.arccos, show Real.pi / 2 - Real.arcsin ⟪D⟫ - (Real.pi / 2 - Real.arcsin d) =
      -(Real.arcsin ⟪D⟫ - Real.arcsin d) by ring, abs_neg]
    exact hp
  refine (dist_trans k2 e).trans ?_
  have := Real.pi_lt_d2
  have h1 : 1 ≤ 1 / S := (one_le_div hS0).mpr hS1
  rw [div_eq_mul_one_div _ S, div_eq_mul_one_div (31 / 10 ^ 7) S]
  have : Real.pi * (8 / 10 ^ 7) * (1 / S) ≤ 315 / 100 * (8 / 10 ^ 7) * (1 / S) := by
    refine mul_le_mul_of_nonneg_right (by norm_num at *; linarith) (by positivity)
  norm_num at *
  linarith

/-- The sine of a part of the angle. -/
theorem slerp_sin [Trig F] {c t : F} {a θ r : ℝ} (hc : Apx c a (6 / 10 ^ 8)) (a0 : 0 ≤ a) (a1 : a ≤ 1)
    (ht : Apx t θ (31 / 10 ^ 7 * r)) (hθ : |θ| ≤ 4) (r1 : 1 ≤ r) (r2 : r ≤ 50) :
    Apx (Scalar.sin (c *ᶠ t)) (Real.sin (a * θ)) (39 / 10 ^ 7 * r) := by
  have hη := rη_le
  have hm := hc.mul ht (A := 1) (B := 4) (by rw [abs_of_nonneg a0]; exact a1) hθ (by norm_num; linarith)
  have hm : Apx (c *ᶠ t) (a * θ) (36 / 10 ^ 7 * r) := hm.mono (by norm_num at *; linarith)
  refine ⟨Trig.sin_finite hm.1, ?_⟩
  have h1 := Trig.sin_near hm.1
  have h2 : |Real.sin ⟪c *ᶠ t⟫ - Real.sin (a * θ)| ≤ 36 / 10 ^ 7 * r := (Real.abs_sin_sub_sin_le _ _).trans hm.2
  refine (dist_trans h1 h2).trans ?_
  norm_num at *
  linarith

/-- A quotient of sines. -/
theorem slerp_quot {p q : F} {P c r : ℝ} (hp : Apx p P (39 / 10 ^ 7 * r)) (hq : Apx q (1 / r) (34 / 10 ^ 7 * r))
    (r1 : 1 ≤ r) (r2 : r ≤ 50) (c1 : 1 ≤ c) (c2 : c ≤ 50) (hP : |P / (1 / r)| ≤ c) :
    Apx (p /ᶠ q) (P / (1 / r)) (77 / 10 ^ 7 * (c * r ^ 2)) := by
  have hη := rη_le
  have hr0 : 0 < r := by linarith
  have h4 : r ^ 2 ≤ 2500 := by nlinarith
  have h5 : 1 ≤ r ^ 2 := by nlinarith
  have hM : c ≤ c * r ^ 2 := le_mul_of_one_le_right (by linarith) h5
  have hM2 : c * r ^ 2 ≤ 50 * 2500 := mul_le_mul c2 h4 (by positivity) (by norm_num)
  have hb : 34 / 10 ^ 7 * r < 1 / r := by
    rw [lt_div_iff₀ hr0]
    nlinarith
  refine (hp.div hq (m := 1 / r) (c := c) (E := 75 / 10 ^ 7 * (c * r ^ 2)) le_rfl hb hP ?_ ?_).mono ?_
  · have e : 75 / 10 ^ 7 * (c * r ^ 2) * (1 / r - 34 / 10 ^ 7 * r) =
        75 / 10 ^ 7 * (c * r) * (1 - 34 / 10 ^ 7 * r ^ 2) := by field_simp
    rw [e]
    have h6 : 0 ≤ c * r := by positivity
    have h7 : r ≤ c * r := le_mul_of_one_le_left hr0.le c1
    have h8 : 75 / 10 ^ 7 * (c * r) * (99 / 100) ≤ 75 / 10 ^ 7 * (c * r) * (1 - 34 / 10 ^ 7 * r ^ 2) :=
      mul_le_mul_of_nonneg_left (by norm_num; linarith) (by positivity)
    refine le_trans ?_ h8
    norm_num
    linarith
  · norm_num
    linarith
  · norm_num at *
    linarith

/-- One element of `slerp`. -/
theorem slerp_element {x y p q : F} {P Q M : ℝ} (hx : Finite x) (hy : Finite y) (hX : |⟪x⟫| ≤ 1001 / 1000)
    (hY : |⟪y⟫| ≤ 1001 / 1000) (hp : Apx p P (77 / 10 ^ 7 * M)) (hq : Apx q Q (77 / 10 ^ 7 * M)) (hP : |P| ≤ M)
    (hQ : |Q| ≤ M) (M1 : 1 ≤ M) (M2 : M ≤ 10 ^ 6) :
    Finite (x *ᶠ p) ∧ Finite (y *ᶠ q) ∧ Apx ((x *ᶠ p) +ᶠ (y *ᶠ q)) (⟪x⟫ * P + ⟪y⟫ * Q) (16 / 10 ^ 6 * M) := by
  have hη := rη_le
  have h1 := (Apx.exact hx).mul hp hX hP (by norm_num at *; linarith)
  have h1 : Apx (x *ᶠ p) (⟪x⟫ * P) (78 / 10 ^ 7 * M) := h1.mono (by norm_num at *; linarith)
  have h2 := (Apx.exact hy).mul hq hY hQ (by norm_num at *; linarith)
  have h2 : Apx (y *ᶠ q) (⟪y⟫ * Q) (78 / 10 ^ 7 * M) := h2.mono (by norm_num at *; linarith)
  have b : |⟪x⟫ * P + ⟪y⟫ * Q| ≤ 1001 / 1000 * M + 1001 / 1000 * M := by
    refine (abs_add_le _ _).trans (add_le_add ?_ ?_) <;> rw [abs_mul]
    · exact mul_le_mul hX hP (abs_nonneg _) (by norm_num)
    · exact mul_le_mul hY hQ (abs_nonneg _) (by norm_num)
  refine ⟨h1.1, h2.1, (h1.add h2 b ?_).mono ?_⟩
  · norm_num at *; linarith
  · norm_num at *; linarith

/-- The computed dot product of two vectors of norm about 1. -/
theorem slerp_dot {v w : Vec F} {n : Nat} {f g : Nat → F} (hv : VecIs v n f) (hw : VecIs w n g)
    (hf : ∀ i, i < n → Finite (f i)) (hg : ∀ i, i < n → Finite (g i))
    (hx : |norm2 n (fun i => ⟪f i⟫) - 1| ≤ 1 / 10 ^ 6) (hy : |norm2 n (fun i => ⟪g i⟫) - 1| ≤ 1 / 10 ^ 6) :
    ∃ D, v.dotProduct w = .ok D ∧ Apx D (∑ i ∈ range n, ⟪f i⟫ * ⟪g i⟫) (8 / 10 ^ 7) := by
  obtain ⟨x1, x2⟩ := abs_le.mp hx
  obtain ⟨y1, y2⟩ := abs_le.mp hy
  have hA : ∑ i ∈ range n, |⟪f i⟫ * ⟪g i⟫| ≤ 1001 / 1000 := by
    have h : ∑ i ∈ range n, |⟪f i⟫ * ⟪g i⟫| ≤ ∑ i ∈ range n, (⟪f i⟫ ^ 2 / 2 + ⟪g i⟫ ^ 2 / 2) := by
      refine Finset.sum_le_sum fun i _ => ?_
      rw [abs_le]
      constructor <;> nlinarith [sq_nonneg (⟪f i⟫ - ⟪g i⟫), sq_nonneg (⟪f i⟫ + ⟪g i⟫)]
    rw [Finset.sum_add_distrib, ← Finset.sum_div, ← Finset.sum_div, ← norm2_sq n (fun i => ⟪f i⟫),
      ← norm2_sq n (fun i => ⟪g i⟫)] at h
    have := norm2_nonneg n (fun i => ⟪f i⟫)
    have := norm2_nonneg n (fun i => ⟪g i⟫)
    nlinarith
  have hn : (n : ℝ) ≤ 4 := by exact_mod_cast hv.le
  have hA0 : 0 ≤ ∑ i ∈ range n, |⟪f i⟫ * ⟪g i⟫| := Finset.sum_nonneg fun i _ => abs_nonneg _
  obtain ⟨D, e, h1, h2⟩ := C76_dot hv hw hf hg (hA.trans (by norm_num))
  refine ⟨D, e, h1, h2.trans ?_⟩
  have h3 : 3 * (n : ℝ) / 2 ^ 24 * ∑ i ∈ range n, |⟪f i⟫ * ⟪g i⟫| ≤ 3 * 4 / 2 ^ 24 * (1001 / 1000) :=
    mul_le_mul (by linarith) hA hA0 (by norm_num)
  have h4 : 3 * (n : ℝ) / 2 ^ 150 ≤ 3 * 4 / 2 ^ 150 := by linarith
  refine (add_le_add h3 h4).trans ?_
  norm_num

/-- `slerp` in binary32, in terms of a bound `c` for the weights. -/
theorem slerp_core [Trig F] [Acos F] {s v w : Vec F} {n : Nat} {f0 f g : Nat → F} {α : F} {d S θ c : ℝ}
    (hs : VecIs s n f0) (hv : VecIs v n f) (hw : VecIs w n g)
    (hf : ∀ i, i < n → Finite (f i)) (hg : ∀ i, i < n → Finite (g i))
    (hx : |norm2 n (fun i => ⟪f i⟫) - 1| ≤ 1 / 10 ^ 6) (hy : |norm2 n (fun i => ⟪g i⟫) - 1| ≤ 1 / 10 ^ 6)
    (hα : Finite α) (h0 : 0 ≤ ⟪α⟫) (h1 : ⟪α⟫ ≤ 1) (hd : d = ∑ i ∈ range n, ⟪f i⟫ * ⟪g i⟫)
    (hS : S = √(1 - d ^ 2)) (hS1 : 1 / 50 ≤ S) (hθ : θ = Real.arccos d) (c1 : 1 ≤ c) (c2 : c ≤ 50)
    (k1 : |Real.sin ((1 - ⟪α⟫) * θ) / S| ≤ c) (k2 : |Real.sin (⟪α⟫ * θ) / S| ≤ c) :
    ∃ s' h, Vec.slerp v w α s = (.ok (), s') ∧ VecIs s' n h ∧ ∀ i, i < n →
      Apx (h i) (Real.sin ((1 - ⟪α⟫) * θ) / S * ⟪f i⟫ + Real.sin (⟪α⟫ * θ) / S * ⟪g i⟫) (16 / 10 ^ 6 * (c / S ^ 2)) := by
  have hη := rη_le
  obtain ⟨D, eD, hD⟩ := slerp_dot hv hw hf hg hx hy
  rw [← hd] at hD
  have hS0 : 0 < S := by linarith
  have hSle : S ≤ 1 := by
    rw [hS]
    exact Real.sqrt_le_one.mpr (by nlinarith [sq_nonneg d])
  set r := 1 / S with hr
  have hSr : S = 1 / r := by rw [hr, one_div_one_div]
  have r1 : 1 ≤ r := (one_le_div hS0).mpr hSle
  have r2 : r ≤ 50 := by
    rw [hr, div_le_iff₀ hS0]
    linarith
  have hT : Apx (Scalar.acos D) θ (31 / 10 ^ 7 * r) := by
    have := slerp_angle hD hS hS1
    rwa [← hθ, div_eq_mul_one_div, ← hr] at this
  have hθ4 : |θ| ≤ 4 := by
    have := Real.pi_lt_d2
    norm_num at this
    rw [hθ, abs_of_nonneg (Real.arccos_nonneg d)]
    linarith [Real.arccos_le_pi d]
  have hsin : Real.sin θ = 1 / r := by rw [← hSr, hθ, Real.sin_arccos, hS]
  have hsT : Apx (Scalar.sin (Scalar.acos D)) (1 / r) (34 / 10 ^ 7 * r) := by
    rw [← hsin]
    refine ⟨Trig.sin_finite hT.1, ?_⟩
    refine (dist_trans (Trig.sin_near hT.1) ((Real.abs_sin_sub_sin_le _ _).trans hT.2)).trans ?_
    norm_num at *
    linarith
  obtain ⟨q1, q2⟩ := rest_near hα h0 h1
  have hq : Apx (lit 1 -ᶠ α) (1 - ⟪α⟫) (6 / 10 ^ 8) := ⟨q1, q2.trans (by norm_num at *; linarith)⟩
  have s1 := slerp_sin hq (by linarith) (by linarith) hT hθ4 r1 r2
  have s2 := slerp_sin ((Apx.exact hα).mono (by norm_num)) h0 h1 hT hθ4 r1 r2
  rw [hSr] at k1 k2
  have t1 := slerp_quot s1 hsT r1 r2 c1 c2 k1
  have t2 := slerp_quot s2 hsT r1 r2 c1 c2 k2
  have h5 : 1 ≤ r ^ 2 := by nlinarith
  have h4 : r ^ 2 ≤ 2500 := by nlinarith
  have hM : c ≤ c * r ^ 2 := le_mul_of_one_le_right (by linarith) h5
  have hM2 : c * r ^ 2 ≤ 50 * 2500 := mul_le_mul c2 h4 (by positivity) (by norm_num)
  have bx : ∀ i, i < n → |⟪f i⟫| ≤ 1001 / 1000 := fun i hi =>
    (norm2_elem_le (fun i => ⟪f i⟫) hi).trans (by linarith [(abs_le.mp hx).2])
  have bY : ∀ i, i < n → |⟪g i⟫| ≤ 1001 / 1000 := fun i hi =>
    (norm2_elem_le (fun i => ⟪g i⟫) hi).trans (by linarith [(abs_le.mp hy).2])
  have k := fun i hi => slerp_element (hf i hi) (hg i hi) (bx i hi) (bY i hi) t1 t2 (k1.trans hM) (k2.trans hM)
    (c1.trans hM) (by linarith)
  unfold Vec.slerp
  simp only [alpha_ok hα h0 h1, Bool.not_true, Bool.false_eq_true, if_false, Op.get_bind,
    hs.sameSize hv, hs.sameSize hw, hs.rows, Op.liftOk_bind, eD]
  obtain ⟨s', e, h⟩ := interp_ok (c := Scalar.sin ((lit 1 -ᶠ α) *ᶠ Scalar.acos D) /ᶠ Scalar.sin (Scalar.acos D))
    (d := Scalar.sin (α *ᶠ Scalar.acos D) /ᶠ Scalar.sin (Scalar.acos D)) hs hv hw hf hg
    (fun i hi => (k i hi).1) (fun i hi => (k i hi).2.1) (fun i hi => (k i hi).2.2.1)
  refine ⟨s', _, e, h, fun i hi => ?_⟩
  have := (k i hi).2.2
  rw [hSr]
  have e2 : c / (1 / r) ^ 2 = c * r ^ 2 := by field_simp
  rw [e2]
  convert this using 1
  ring

theorem sin_part_le {a θ : ℝ} (a0 : 0 ≤ a) (a1 : a ≤ 1) (h0 : 0 ≤ θ) (h1 : θ ≤ Real.pi / 2) :
    |Real.sin (a * θ)| ≤ Real.sin θ := by
  have h2 : a * θ ≤ θ := mul_le_of_le_one_left h0 a1
  have h3 : 0 ≤ a * θ := mul_nonneg a0 h0
  rw [abs_of_nonneg (Real.sin_nonneg_of_nonneg_of_le_pi h3 (by linarith [Real.pi_pos]))]
  exact Real.sin_le_sin_of_le_of_le_pi_div_two (by linarith [Real.pi_pos]) h1 h2

/-- C105: `slerp` in binary32 of vectors of norm 1 within `10⁻⁶`, when the sine `S` of the angle between them is at
least 1/50. -/
theorem C105_slerp [Trig F] [Acos F] {s v w : Vec F} {n : Nat} {f0 f g : Nat → F} {α : F} {d S θ : ℝ}
    (hs : VecIs s n f0) (hv : VecIs v n f) (hw : VecIs w n g)
    (hf : ∀ i, i < n → Finite (f i)) (hg : ∀ i, i < n → Finite (g i))
    (hx : |norm2 n (fun i => ⟪f i⟫) - 1| ≤ 1 / 10 ^ 6) (hy : |norm2 n (fun i => ⟪g i⟫) - 1| ≤ 1 / 10 ^ 6)
    (hα : Finite α) (h0 : 0 ≤ ⟪α⟫) (h1 : ⟪α⟫ ≤ 1) (hd : d = ∑ i ∈ range n, ⟪f i⟫ * ⟪g i⟫) (hθ : θ = Real.arccos d)
    (hS : S = √(1 - d ^ 2)) (hS1 : 1 / 50 ≤ S) :
    ∃ s' h, Vec.slerp v w α s = (.ok (), s') ∧ VecIs s' n h ∧ ∀ i, i < n → Finite (h i) ∧
      |⟪h i⟫ - (Real.sin ((1 - ⟪α⟫) * θ) * ⟪f i⟫ + Real.sin (⟪α⟫ * θ) * ⟪g i⟫) / Real.sin θ| ≤ 16 / 10 ^ 6 / S ^ 3 ∧
      (0 ≤ d →
        |⟪h i⟫ - (Real.sin ((1 - ⟪α⟫) * θ) * ⟪f i⟫ + Real.sin (⟪α⟫ * θ) * ⟪g i⟫) / Real.sin θ| ≤ 16 / 10 ^ 6 / S ^ 2) := by
  have hS0 : 0 < S := by linarith
  have hSle : S ≤ 1 := by
    rw [hS]
    exact Real.sqrt_le_one.mpr (by nlinarith [sq_nonneg d])
  have hsin : Real.sin θ = S := by rw [hθ, Real.sin_arccos, hS]
  have gen : ∀ t, |Real.sin t / S| ≤ 1 / S := fun t => by
    rw [abs_div, abs_of_pos hS0]
    exact div_le_div_of_nonneg_right (Real.abs_sin_le_one t) hS0.le
  have e3 : ∀ x y : ℝ, (Real.sin ((1 - ⟪α⟫) * θ) * x + Real.sin (⟪α⟫ * θ) * y) / Real.sin θ =
      Real.sin ((1 - ⟪α⟫) * θ) / S * x + Real.sin (⟪α⟫ * θ) / S * y := fun x y => by rw [hsin]; ring
  obtain ⟨s', h, e, hh, k⟩ := slerp_core hs hv hw hf hg hx hy hα h0 h1 hd hS hS1 hθ ((one_le_div hS0).mpr hSle)
    (by rw [div_le_iff₀ hS0]; linarith) (gen _) (gen _)
  refine ⟨s', h, e, hh, fun i hi => ⟨(k i hi).1, ?_, fun hd0 => ?_⟩⟩
  · rw [e3]
    refine (k i hi).2.trans (le_of_eq ?_)
    field_simp
  · have hθ2 : θ ≤ Real.pi / 2 := by rw [hθ]; exact Real.arccos_le_pi_div_two.mpr hd0
    have hθ0 : 0 ≤ θ := by rw [hθ]; exact Real.arccos_nonneg d
    have part : ∀ a, 0 ≤ a → a ≤ 1 → |Real.sin (a * θ) / S| ≤ 1 := fun a a0 a1 => by
      rw [abs_div, abs_of_pos hS0, div_le_one hS0, ← hsin]
      exact sin_part_le a0 a1 hθ0 hθ2
    obtain ⟨s2, h2, e2, hh2, k'⟩ := slerp_core hs hv hw hf hg hx hy hα h0 h1 hd hS hS1 hθ le_rfl (by norm_num)
      (part _ (by linarith) (by linarith)) (part _ h0 h1)
    have es : s2 = s' := (Prod.mk.inj (e2.symm.trans e)).2
    have eh : h2 i = h i := by
      have a := hh2.get i hi
      rw [es, hh.get i hi] at a
      exact (Except.ok.inj a).symm
    rw [e3, ← eh]
    refine (k' i hi).2.trans (le_of_eq ?_)
    ring

/-! ### An accurate `acosf`, and cases -/

/-- binary32 with accurate `sinf`, `cosf` and `acosf`. -/
def F32S : Type := F32

open Classical in
noncomputable instance : Scalar F32S :=
  F32.withLibm (fun x => if Finite x then F32.ofReal (Real.sin x.toReal) else ⟨.nan⟩)
    (fun x => if Finite x then F32.ofReal (Real.cos x.toReal) else ⟨.nan⟩)
    (fun x => if Finite x ∧ |x.toReal| ≤ 1 then F32.ofReal (Real.arccos x.toReal) else ⟨.nan⟩)
    Scalar.asin Scalar.exp Scalar.atan2 Scalar.pow
noncomputable instance : Rounded F32S := F32.withLibm_rounded ..

instance : Trig F32S where
  cos_finite {x} hx := by
    show Finite (if Finite (x : F32) then F32.ofReal (Real.cos (F32.toReal x)) else ⟨.nan⟩)
    rw [if_pos hx]
    exact (F32.ofReal_near (Real.abs_cos_le_one _)).1
  sin_finite {x} hx := by
    show Finite (if Finite (x : F32) then F32.ofReal (Real.sin (F32.toReal x)) else ⟨.nan⟩)
    rw [if_pos hx]
    exact (F32.ofReal_near (Real.abs_sin_le_one _)).1
  cos_near {x} hx := by
    show |F32.toReal (if Finite (x : F32) then F32.ofReal (Real.cos (F32.toReal x)) else ⟨.nan⟩) -
      Real.cos (F32.toReal x)| ≤ _
    rw [if_pos hx]
    exact (F32.ofReal_near (Real.abs_cos_le_one _)).2
  sin_near {x} hx := by
    show |F32.toReal (if Finite (x : F32) then F32.ofReal (Real.sin (F32.toReal x)) else ⟨.nan⟩) -
      Real.sin (F32.toReal x)| ≤ _
    rw [if_pos hx]
    exact (F32.ofReal_near (Real.abs_sin_le_one _)).2

open Classical in
instance : Acos F32S where
  acos_near {x} hx h1 := by
    show Finite (if Finite (x : F32) ∧ |F32.toReal x| ≤ 1 then F32.ofReal (Real.arccos (F32.toReal x)) else ⟨.nan⟩) ∧
      |F32.toReal (if Finite (x : F32) ∧ |F32.toReal x| ≤ 1 then F32.ofReal (Real.arccos (F32.toReal x)) else ⟨.nan⟩) -
        Real.arccos (F32.toReal x)| ≤ _
    rw [if_pos ⟨hx, h1⟩]
    refine F32.ofReal_near_four ?_
    have := Real.pi_lt_d2
    norm_num at this
    rw [abs_of_nonneg (Real.arccos_nonneg _)]
    linarith [Real.arccos_le_pi (F32.toReal x)]

theorem F32S.val_lit {k : ℚ} (hk : F32.fl (.fin k) = ⟨.fin k⟩) : ⟪(lit k : F32S)⟫ = (k : ℝ) := Verif.val_lit hk

/-- The first two axes. -/
noncomputable def axis0 : Nat → F32S := fun i => if i = 0 then lit 1 else lit 0
noncomputable def axis1 : Nat → F32S := fun i => if i = 1 then lit 1 else lit 0

theorem axis_fin : ∀ i, i < 2 → Finite (axis0 i) ∧ Finite (axis1 i) := by
  have a : Finite (lit 1 : F32S) := Rounded.one_finite
  have b : Finite (lit 0 : F32S) := Rounded.zero_finite
  intro i _
  unfold axis0 axis1
  constructor <;> split <;> assumption

/-- Half way between the first two axes, from the theorem: both coordinates are `sin (π/4)` within `16/10⁶`. -/
example : ∃ s' h, Vec.slerp (Vec.of 2 axis0) (Vec.of 2 axis1) (lit (1 / 2)) (Vec.of 2 axis0) = (.ok (), s') ∧
    VecIs s' 2 h ∧ ∀ i, i < 2 → Finite (h i) ∧ |⟪h i⟫ - Real.sin (1 / 2 * (Real.pi / 2))| ≤ 16 / 10 ^ 6 := by
  have v0 : ⟪(lit 0 : F32S)⟫ = 0 := Rounded.zero_val
  have v1 : ⟪(lit 1 : F32S)⟫ = 1 := Rounded.one_val
  have vh : ⟪(lit (1 / 2) : F32S)⟫ = 1 / 2 := by
    rw [F32S.val_lit (by decide +kernel)]; norm_num
  have hh : Finite (lit (1 / 2) : F32S) := show Finite (lit (1 / 2) : F32) by decide +kernel
  have n0 : norm2 2 (fun i => ⟪axis0 i⟫) = 1 := by
    simp [norm2, Finset.sum_range_succ, axis0, v0, v1]
  have n1 : norm2 2 (fun i => ⟪axis1 i⟫) = 1 := by
    simp [norm2, Finset.sum_range_succ, axis1, v0, v1]
  obtain ⟨s', h, e, hs, k⟩ := C105_slerp (d := 0) (S := 1) (θ := Real.pi / 2) (α := (lit (1 / 2) : F32S))
    (Vec.of_is axis0 (by norm_num) (by norm_num)) (Vec.of_is axis0 (by norm_num) (by norm_num))
    (Vec.of_is axis1 (by norm_num) (by norm_num)) (fun i hi => (axis_fin i hi).1) (fun i hi => (axis_fin i hi).2)
    (by rw [n0]; norm_num) (by rw [n1]; norm_num) hh (by rw [vh]; norm_num) (by rw [vh]; norm_num)
    (by simp [Finset.sum_range_succ, axis0, axis1, v0, v1]) (by rw [Real.arccos_zero]) (by simp) (by norm_num)
  refine ⟨s', h, e, hs, fun i hi => ⟨(k i hi).1, ?_⟩⟩
  have := (k i hi).2.2 le_rfl
  rw [vh, Real.sin_pi_div_two] at this
  interval_cases i
  · simp [axis0, axis1, v0, v1] at this ⊢
    norm_num at this ⊢
    exact this
  · simp [axis0, axis1, v0, v1] at this ⊢
    norm_num at this ⊢
    exact this

/-- Where the weight of the first vector makes its first component NaN, `slerp` fails. -/
theorem slerp_nan {F : Type} [Scalar F] {s v w : Vec F} {n : Nat} {f0 f g : Nat → F} {α d : F} (hs : VecIs s n f0)
    (hv : VecIs v n f) (hw : VecIs w n g) (hf : ∀ i, i < n → Finite (f i)) (hg : ∀ i, i < n → Finite (g i))
    (ha : Utils.inRange α (lit 0) (lit 1) = true) (hd : v.dotProduct w = .ok d)
    (hn : Scalar.isNaN (f 0 *ᶠ (Scalar.sin ((lit 1 -ᶠ α) *ᶠ Scalar.acos d) /ᶠ Scalar.sin (Scalar.acos d))) = true) :
    Vec.slerp v w α s = (.error (.err (.UtilsError .Nan)), s) := by
  obtain ⟨v1, e1, hv1⟩ := Vec.exec_copy hv hf
  obtain ⟨w1, e2, hw1⟩ := Vec.exec_copy hw hg
  have e3 : exec v1 (Vec.mulByScalarInPlace
      (Scalar.sin ((lit 1 -ᶠ α) *ᶠ Scalar.acos d) /ᶠ Scalar.sin (Scalar.acos d))) = .error (.err (.UtilsError .Nan)) := by
    have bad : ¬ Finite (f 0 *ᶠ (Scalar.sin ((lit 1 -ᶠ α) *ᶠ Scalar.acos d) /ᶠ Scalar.sin (Scalar.acos d))) := fun h => by
      rw [h.1] at hn
      cases hn
    rcases (Vec.mulByScalarInPlace_stores (x := Scalar.sin ((lit 1 -ᶠ α) *ᶠ Scalar.acos d) /ᶠ Scalar.sin (Scalar.acos d))
      hv1).cases with ⟨h, -⟩ | ⟨k, hk, h1, h2, e⟩
    · exact absurd (h 0 hv.pos) bad
    · have : k = 0 := by
        by_contra h
        exact bad (h1 0 (by omega))
      subst this
      unfold exec
      rw [e]
      simp [valueErr, hn]
  unfold Vec.slerp
  simp only [ha, Bool.not_true, Bool.false_eq_true, if_false, Op.get_bind, hs.sameSize hv, hs.sameSize hw, hs.rows,
    Op.liftOk_bind, hd, Vec.init_new hv.pos hv.le, e1, e2, e3]
  rfl

/-- C105: rounding makes `slerp` fail between a vector and itself: `normalize` turns (3, 0, 3) into a `v` whose computed
product with itself exceeds 1, so that `acosf` is NaN, and `slerp` of `v` with `v` fails.  Whatever the other values of the
mathematical library are, and for every step `α` of the range. -/
theorem C105_slerp_same {sin cos acos asin exp : F32 → F32} {atan2 pow : F32 → F32 → F32}
    (h1 : ∀ x : F32, (lit 1 <ᶠ x) = true → acos x = ⟨.nan⟩) (h2 : sin ⟨.nan⟩ = ⟨.nan⟩) :
    ∃ v : Vec F32, Vec.normalize (fvec [3, 0, 3]) = (.ok (), v) ∧
      ∀ α : F32, (lit 0 ≤ᶠ α) = true → (α ≤ᶠ lit 1) = true → ∀ (s : Vec F32) (f0 : Nat → F32), VecIs s 3 f0 →
      @Vec.slerp F32 (F32.withLibm sin cos acos asin exp atan2 pow) v v α s = (.error (.err (.UtilsError .Nan)), s) := by
  have he : Vec.normalize (fvec [3, 0, 3]) = (.ok (), (Vec.normalize (fvec [3, 0, 3])).2) :=
    Prod.ext (by decide +kernel) rfl
  refine ⟨_, he, fun α a0 a1 s f0 hs => ?_⟩
  have hv : VecIs (Vec.normalize (fvec [3, 0, 3])).2 3
      (seq3 ⟨.fin (2965821 / 4194304)⟩ ⟨.fin 0⟩ ⟨.fin (2965821 / 4194304)⟩) :=
    ⟨by omega, by omega, by decide +kernel, forall_lt_three.mpr (by decide +kernel)⟩
  have hf : ∀ i, i < 3 → Finite (seq3 ⟨.fin (2965821 / 4194304)⟩ ⟨.fin 0⟩ ⟨.fin (2965821 / 4194304)⟩ i : F32) :=
    forall_lt_three.mpr (by decide +kernel)
  have hd : (Vec.normalize (fvec [3, 0, 3])).2.dotProduct (Vec.normalize (fvec [3, 0, 3])).2 =
      .ok ⟨.fin (8388609 / 8388608)⟩ := by decide +kernel
  have hm : ∀ x : F32, x *ᶠ ⟨.nan⟩ = ⟨.nan⟩ := fun x => by
    obtain ⟨x⟩ := x
    cases x <;> rfl
  have hr : Utils.inRange α (lit 0) (lit 1) = true := inRange_ok a0 a1
  generalize hvd : (Vec.normalize (fvec [3, 0, 3])).2 = v at *
  have e1 : acos ⟨.fin (8388609 / 8388608)⟩ = ⟨.nan⟩ := h1 _ (by decide +kernel)
  refine @slerp_nan F32 (F32.withLibm sin cos acos asin exp atan2 pow) s v v 3 f0 _ _ α ⟨.fin (8388609 / 8388608)⟩
    ⟨hs.1, hs.2, hs.3, hs.4⟩ ⟨hv.1, hv.2, hv.3, hv.4⟩ ⟨hv.1, hv.2, hv.3, hv.4⟩ hf hf hr hd ?_
  show Scalar.isNaN ((⟨.fin (2965821 / 4194304)⟩ : F32) *ᶠ (sin ((lit 1 -ᶠ α) *ᶠ acos ⟨.fin (8388609 / 8388608)⟩) /ᶠ
    sin (acos ⟨.fin (8388609 / 8388608)⟩))) = true
  rw [e1, hm, h2]
  decide +kernel

/-- The premises of `C105_slerp_same` hold for the library of `F32S`. -/
example : (∀ x : F32, (lit 1 <ᶠ x) = true → (Scalar.acos (x : F32S) : F32S) = (⟨.nan⟩ : F32)) ∧
    (Scalar.sin ((⟨.nan⟩ : F32) : F32S) : F32S) = (⟨.nan⟩ : F32) := by
  constructor
  · intro x hx
    show (if Finite (x : F32) ∧ |F32.toReal x| ≤ 1 then F32.ofReal (Real.arccos (F32.toReal x)) else ⟨.nan⟩) = _
    rw [if_neg]
    rintro ⟨h1, h2⟩
    rw [Rounded.lt_val Rounded.one_finite h1, Rounded.one_val] at hx
    linarith [le_abs_self (F32.toReal x), show F32.toReal x = ⟪x⟫ from rfl]
  · show (if Finite (⟨.nan⟩ : F32) then F32.ofReal (Real.sin (F32.toReal ⟨.nan⟩)) else ⟨.nan⟩) = _
    rw [if_neg (by decide +kernel)]

/-- A case of `lerp`: 1/4 of the way from (1, 2) to (3, -5). -/
example : contents 2 (Vec.lerp (fvec [1, 2]) (fvec [3, -5]) (lit (1 / 4)) (fvec [0, 0])) = [lit (3 / 2), lit (1 / 4)] := by
  decide +kernel
/-- The hypotheses of `C105_lerp` for it. -/
example : ∃ s' h, Vec.lerp (fvec [1, 2]) (fvec [3, -5]) (lit (1 / 4)) (fvec [0, 0]) = (.ok (), s') ∧ VecIs s' 2 h := by
  have f : ∀ k : ℚ, F32.fl (.fin k) = ⟨.fin k⟩ → |(k : ℝ)| ≤ 2 ^ 120 → Finite (lit k : F32) → 
      Finite (lit k : F32) ∧ |⟪(lit k : F32)⟫| ≤ 2 ^ 120 := fun k h1 h2 h3 => ⟨h3, by rw [val_lit h1]; exact h2⟩
  have e : ⟪(lit (1 / 4) : F32)⟫ = 1 / 4 := by rw [val_lit (by decide +kernel)]; norm_num
  obtain ⟨s', h, e, hs, -⟩ := C105_lerp (s := fvec [0, 0]) (v := fvec [1, 2]) (w := fvec [3, -5]) (α := (lit (1 / 4) : F32))
    (Vec.of_is (F := F32) (n := 2) _ (by decide) (by decide)) (Vec.of_is (F := F32) (n := 2) _ (by decide) (by decide))
    (Vec.of_is (F := F32) (n := 2) _ (by decide) (by decide))
    (fun i hi => by
      interval_cases i
      · exact f 1 (by decide +kernel) (by norm_num [abs_of_pos]) (by decide +kernel)
      · exact f 2 (by decide +kernel) (by norm_num [abs_of_pos]) (by decide +kernel))
    (fun i hi => by
      interval_cases i
      · exact f 3 (by decide +kernel) (by norm_num [abs_of_pos]) (by decide +kernel)
      · exact f (-5) (by decide +kernel) (by norm_num [abs_of_pos]) (by decide +kernel))
    (by decide +kernel) (by rw [e]; norm_num) (by rw [e]; norm_num)
  exact ⟨s', h, e, hs⟩

end Verif
