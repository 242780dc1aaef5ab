import Mathlib.Analysis.SpecialFunctions.Trigonometric.InverseDeriv
import Verif.Props.RoundedSim
import Verif.Props.ArAngles
import Verif.Props.RoundedArEuler

/-
C133: the test of `open_ahrs/src/lib.rs` in binary32, the tables of angles and the AR filter.
-/

set_option linter.unusedSectionVars false
set_option linter.unusedSimpArgs false

namespace Verif
open Scalar Finset Quaternion

variable {F : Type} [Scalar F] [R : Rounded F]

/-- An `atan2f` whose results stay in the range of the function, with a margin. -/
class Wraps (F : Type) [Scalar F] [Rounded F] : Prop where
  atan2_le : ∀ {y x : F}, Finite y → Finite x → |⟪Scalar.atan2 y x⟫| ≤ 4

namespace AhrsTest

/-! ### Angles -/

theorem arcsin_lip {x y : ℝ} (hx : |x| ≤ 3 / 5) (hy : |y| ≤ 3 / 5) :
    |Real.arcsin x - Real.arcsin y| ≤ 5 / 4 * |x - y| := by
  have hc : Convex ℝ (Set.Icc (-(3 / 5) : ℝ) (3 / 5)) := convex_Icc _ _
  have := hc.norm_image_sub_le_of_norm_deriv_le (f := Real.arcsin) (C := 5 / 4) (x := y) (y := x)
    (fun z hz => (Real.differentiableAt_arcsin.mpr ⟨by linarith [hz.1], by linarith [hz.2]⟩)) (fun z hz => by
      rw [Real.deriv_arcsin, Real.norm_eq_abs, abs_of_nonneg (by positivity)]
      have h1 : (4 / 5 : ℝ) ≤ √(1 - z ^ 2) := by
        refine Real.le_sqrt_of_sq_le ?_
        nlinarith [hz.1, hz.2]
      rw [div_le_iff₀ (by linarith)]
      linarith) (abs_le.mp hy) (abs_le.mp hx)
  simpa [Real.norm_eq_abs] using this

/-- Angles with the same cosine and sine. -/
theorem same_angle {t a : ℝ} (h1 : Real.cos t = Real.cos a) (h2 : Real.sin t = Real.sin a) (h : |t - a| < 2 * Real.pi) :
    t = a := by
  obtain ⟨l, r⟩ := abs_lt.mp h
  have : Real.cos (t - a) = 1 := by
    rw [Real.cos_sub, h1, h2]
    nlinarith [Real.sin_sq_add_cos_sq a]
  linarith [(Real.cos_eq_one_iff_of_lt_of_lt (by linarith) (by linarith)).mp this]

/-- An angle near zero. -/
theorem atan2_small [A : Arcs F] [W : Wraps F] {y x : F} {e : ℝ} (fy : Finite y) (fx : Finite x) (hx : 3 / 4 ≤ ⟪x⟫)
    (hy : |⟪y⟫| ≤ e) (he : e ≤ 2 / 5) : Apx (Scalar.atan2 y x) 0 (5 / 3 * e + 1 / 2 ^ 21) := by
  obtain ⟨hf, t, h1, h2, h3⟩ := A.atan2_near fy fx
  have h4 := W.atan2_le fy fx
  have hn : 3 / 4 ≤ ‖(⟨⟪x⟫, ⟪y⟫⟩ : ℂ)‖ := hx.trans (Complex.re_le_norm (⟨⟪x⟫, ⟪y⟫⟩ : ℂ))
  have e0 : 0 ≤ e := (abs_nonneg _).trans hy
  have hq : |⟪y⟫ / ‖(⟨⟪x⟫, ⟪y⟫⟩ : ℂ)‖| ≤ 4 / 3 * e := by
    rw [abs_div, abs_of_pos (by linarith : 0 < ‖(⟨⟪x⟫, ⟪y⟫⟩ : ℂ)‖), div_le_iff₀ (by linarith)]
    nlinarith
  have ha : |Complex.arg ⟨⟪x⟫, ⟪y⟫⟩| ≤ 5 / 3 * e := by
    rw [Complex.arg_of_re_nonneg (by show 0 ≤ ⟪x⟫; linarith)]
    have := arcsin_lip (x := ⟪y⟫ / ‖(⟨⟪x⟫, ⟪y⟫⟩ : ℂ)‖) (y := 0) (hq.trans (by linarith)) (by norm_num)
    rw [Real.arcsin_zero, sub_zero, sub_zero] at this
    refine this.trans ?_
    linarith
  have ht : t = Complex.arg ⟨⟪x⟫, ⟪y⟫⟩ := by
    refine same_angle h1 h2 ?_
    have p := Real.pi_gt_three
    have a1 := abs_le.mp h3
    have a2 := abs_le.mp h4
    have a3 := abs_le.mp ha
    norm_num at a1
    rw [abs_lt]
    constructor <;> linarith
  refine ⟨hf, ?_⟩
  rw [← ht] at ha
  have := dist_trans h3 (show |t - 0| ≤ 5 / 3 * e by rwa [sub_zero])
  linarith

/-- The angles of an attitude near one about `y`. -/
theorem eulerY32 [A : Arcs F] [W : Wraps F] {v : Vec F} {f : Nat → F} (hv : VecIs v 4 f) (hf : ∀ i, i < 4 → Finite (f i))
    {a δ : ℝ} (hd : ‖qval f - yQ a‖ ≤ δ) (hδ : δ ≤ 1 / 100) (hn : ‖qval f‖ ≤ 1001 / 1000) (a0 : 0 ≤ a) (a1 : a ≤ 1 / 5) :
    ∃ x y z : F, Quat.convertToEuler v = .ok (x, y, z) ∧ Apx x 0 (5 * δ + 2 / 10 ^ 6) ∧
      Apx y (2 * a) (4 * δ + 2 / 10 ^ 6) ∧ Apx z 0 (5 * δ + 2 / 10 ^ 6) := by
  obtain ⟨F0, F1, F2, F3⟩ := forall_lt_four.mp hf
  have d0 : 0 ≤ δ := (norm_nonneg _).trans hd
  have c : ∀ x : ℝ, x ^ 2 ≤ ‖qval f - yQ a‖ ^ 2 → |x| ≤ δ := fun x hx => abs_le_of_sq_le_sq (hx.trans (by gcongr)) d0
  have hN : ‖qval f - yQ a‖ ^ 2 = (⟪f 0⟫ - Real.cos a) ^ 2 + ⟪f 1⟫ ^ 2 + (⟪f 2⟫ - Real.sin a) ^ 2 + ⟪f 3⟫ ^ 2 := by
    rw [quat_norm_sq]
    simp [qval]
  have g0 : |⟪f 0⟫ - Real.cos a| ≤ δ := c _ (by rw [hN]; nlinarith [sq_nonneg ⟪f 1⟫, sq_nonneg (⟪f 2⟫ - Real.sin a), sq_nonneg ⟪f 3⟫])
  have g1 : |⟪f 1⟫| ≤ δ := c _ (by rw [hN]; nlinarith [sq_nonneg (⟪f 0⟫ - Real.cos a), sq_nonneg (⟪f 2⟫ - Real.sin a), sq_nonneg ⟪f 3⟫])
  have g2 : |⟪f 2⟫ - Real.sin a| ≤ δ := c _ (by rw [hN]; nlinarith [sq_nonneg (⟪f 0⟫ - Real.cos a), sq_nonneg ⟪f 1⟫, sq_nonneg ⟪f 3⟫])
  have g3 : |⟪f 3⟫| ≤ δ := c _ (by rw [hN]; nlinarith [sq_nonneg (⟪f 0⟫ - Real.cos a), sq_nonneg ⟪f 1⟫, sq_nonneg (⟪f 2⟫ - Real.sin a)])
  have s0 : 0 ≤ Real.sin a := Real.sin_nonneg_of_nonneg_of_le_pi a0 (by linarith [Real.pi_gt_three])
  have s1 : Real.sin a ≤ 1 / 5 := (Real.sin_le a0).trans a1
  have c0 : 0 ≤ Real.cos a := Real.cos_nonneg_of_neg_pi_div_two_le_of_le (by linarith [Real.pi_gt_three]) (by linarith [Real.pi_gt_three])
  have c1 : Real.cos a ≤ 1 := Real.cos_le_one a
  have hs : 2 * (Real.cos a * Real.sin a) = Real.sin (2 * a) := by rw [Real.sin_two_mul]; ring
  have hsin : Real.sin (2 * a) ≤ 2 / 5 := (Real.sin_le (by linarith)).trans (by linarith)
  have har : Real.arcsin (Real.sin (2 * a)) = 2 * a :=
    Real.arcsin_sin (by linarith [Real.pi_gt_three]) (by linarith [Real.pi_gt_three])
  have hsin0 : 0 ≤ Real.sin (2 * a) := Real.sin_nonneg_of_nonneg_of_le_pi (by linarith) (by linarith [Real.pi_gt_three])
  have b : ∀ x : ℝ, x ^ 2 ≤ ‖qval f‖ ^ 2 → |x| ≤ 1001 / 1000 := fun x hx =>
    abs_le_of_sq_le_sq (hx.trans (by gcongr)) (by norm_num)
  have hM : ‖qval f‖ ^ 2 = ⟪f 0⟫ ^ 2 + ⟪f 1⟫ ^ 2 + ⟪f 2⟫ ^ 2 + ⟪f 3⟫ ^ 2 := by rw [quat_norm_sq]; rfl
  have b0 : |⟪f 0⟫| ≤ 1001 / 1000 := b _ (by rw [hM]; nlinarith [sq_nonneg ⟪f 1⟫, sq_nonneg ⟪f 2⟫, sq_nonneg ⟪f 3⟫])
  have b1 : |⟪f 1⟫| ≤ 1001 / 1000 := g1.trans (by linarith)
  have b3 : |⟪f 3⟫| ≤ 1001 / 1000 := g3.trans (by linarith)
  generalize Real.cos a = C at *
  generalize Real.sin a = S at *
  generalize hT : Real.sin (2 * a) = T at *
  have b2 : |⟪f 2⟫| ≤ 21 / 100 := (le_of_dist (a := 1 / 5) (by rw [abs_of_nonneg s0]; exact s1) g2).trans (by linarith)
  have b2' : |⟪f 2⟫| ≤ 1001 / 1000 := b2.trans (by norm_num)
  have pb : ∀ {x y u v : ℝ}, |x| ≤ u → |y| ≤ v → |x * y| ≤ u * v := fun hx hy => by
    rw [abs_mul]
    exact mul_le_mul hx hy (abs_nonneg _) ((abs_nonneg _).trans hx)
  have small : ∀ {x y u v : ℝ}, |x| ≤ 1001 / 1000 → |y| ≤ δ → |u| ≤ 21 / 100 → |v| ≤ δ → |x * y + u * v| ≤ 122 / 100 * δ := by
    intro x y u v h1 h2 h3 h4
    refine (abs_add_le _ _).trans ?_
    have := pb h1 h2
    have := pb h3 h4
    linarith
  have y1 := small b0 g1 b2 g3
  have y2 : |⟪f 0⟫ * ⟪f 3⟫ + ⟪f 1⟫ * ⟪f 2⟫| ≤ 122 / 100 * δ := by
    rw [mul_comm ⟪f 1⟫]
    exact small b0 g3 b2 g1
  have sq1 : ⟪f 1⟫ * ⟪f 1⟫ ≤ 1 / 1000 := by
    have := (le_abs_self _).trans (pb g1 g1)
    nlinarith
  have sq3 : ⟪f 3⟫ * ⟪f 3⟫ ≤ 1 / 1000 := by
    have := (le_abs_self _).trans (pb g3 g3)
    nlinarith
  have sq2 : ⟪f 2⟫ * ⟪f 2⟫ ≤ 5 / 100 := by
    have := (le_abs_self _).trans (pb b2 b2)
    norm_num at this ⊢
    linarith
  have a1' := two_prod_add F0 F1 F2 F3 b0 b1 b2' b3 (y1.trans (by linarith))
  have a2' := two_prod_add F0 F3 F1 F2 b0 b3 b1 b2' (y2.trans (by linarith))
  have x1 := one_sub_squares F1 F2 b1 b2' (by linarith)
  have x2 := one_sub_squares F2 F3 b2' b3 (by linarith)
  have t : |2 * (⟪f 0⟫ * ⟪f 2⟫ - ⟪f 3⟫ * ⟪f 1⟫) - T| ≤ 245 / 100 * δ := by
    rw [← hs, show 2 * (⟪f 0⟫ * ⟪f 2⟫ - ⟪f 3⟫ * ⟪f 1⟫) - 2 * (C * S) =
      2 * ((⟪f 0⟫ - C) * ⟪f 2⟫ + C * (⟪f 2⟫ - S) - ⟪f 3⟫ * ⟪f 1⟫) by ring, abs_mul, abs_two]
    have p1 := pb g0 b2
    have p2 := pb (show |C| ≤ 1 by rw [abs_of_nonneg c0]; exact c1) g2
    have p3 := pb g3 g1
    have := (abs_sub ((⟪f 0⟫ - C) * ⟪f 2⟫ + C * (⟪f 2⟫ - S)) (⟪f 3⟫ * ⟪f 1⟫)).trans (add_le_add (abs_add_le _ _) le_rfl)
    have dd : δ * δ ≤ 1 / 100 * δ := mul_le_mul_of_nonneg_right hδ d0
    linarith
  have hT1 : |T| ≤ 2 / 5 := by rw [abs_of_nonneg hsin0]; exact hsin
  have a3 := two_prod_sub F0 F2 F3 F1 b0 b2' b3 b1 (by
    have := le_of_dist hT1 t
    rw [abs_mul, abs_two] at this
    linarith)
  have a3' : Apx (lit 2 *ᶠ (f 0 *ᶠ f 2 -ᶠ f 3 *ᶠ f 1)) T (245 / 100 * δ + 6 / 10 ^ 7) :=
    a3.of_eq t (by linarith)
  have a3l : |⟪lit 2 *ᶠ (f 0 *ᶠ f 2 -ᶠ f 3 *ᶠ f 1)⟫| ≤ 3 / 5 := (a3'.le hT1).trans (by norm_num; linarith)
  obtain ⟨k1, k2⟩ := A.asin_near a3'.1 (a3l.trans (by norm_num))
  have k3 := arcsin_lip a3l (hT1.trans (by norm_num))
  have small2 : ∀ {y : F} {Y : ℝ}, Apx y (2 * Y) (6 / 10 ^ 7) → |Y| ≤ 122 / 100 * δ → |⟪y⟫| ≤ 244 / 100 * δ + 6 / 10 ^ 7 := by
    intro y Y h1 h2
    refine h1.le ?_
    rw [abs_mul, abs_two]
    linarith
  have ge : ∀ {x : F} {X : ℝ}, Apx x (1 - 2 * X) (7 / 10 ^ 7) → X ≤ 51 / 1000 → 3 / 4 ≤ ⟪x⟫ := by
    intro x X h1 h2
    have := (abs_le.mp h1.2).1
    norm_num at this
    linarith
  refine ⟨_, _, _, ?_, (atan2_small a1'.1 x1.1 (ge x1 (by linarith)) (small2 a1' y1) (by norm_num; linarith)).mono ?_, ⟨k1, ?_⟩,
    (atan2_small a2'.1 x2.1 (ge x2 (by linarith)) (small2 a2' y2) (by norm_num; linarith)).mono ?_⟩
  · unfold Quat.convertToEuler
    simp only [Quat.getQw_eq hv.four, Quat.getQx_eq hv.four, Quat.getQy_eq hv.four, Quat.getQz_eq hv.four, Res.ok_bind]
  · norm_num
    linarith
  · have := dist_trans k2 k3
    rw [har] at this
    have := a3'.2
    norm_num at *
    linarith
  · norm_num
    linarith

/-! ### A table of angles -/

/-- Three components stored in a fresh vector. -/
theorem stored3 {a b c : F} (ha : Finite a) (hb : Finite b) (hc : Finite c) :
    ∃ v1 v2 v3, exec (Vec.zeros 3 : Vec F) (Vec.setElement 0 a) = .ok v1 ∧
    exec v1 (Vec.setElement 1 b) = .ok v2 ∧ exec v2 (Vec.setElement 2 c) = .ok v3 ∧ VecIs v3 3 (seq3 a b c) := by
  have h0 := Vec.zeros_is (F := F) (n := 3) (by omega) (by omega)
  obtain ⟨u1, e1, h1⟩ := h0.exec_set (i := 0) (by omega) ha
  obtain ⟨u2, e2, h2⟩ := h1.exec_set (i := 1) (by omega) hb
  obtain ⟨u3, e3, h3⟩ := h2.exec_set (i := 2) (by omega) hc
  exact ⟨u1, u2, u3, e1, e2, e3, h3.congr (forall_lt_three.mpr ⟨rfl, rfl, rfl⟩)⟩

/-- An angle in degrees. -/
theorem degrees32 [Literals F] {x : F} {X e : ℝ} (hx : Apx x X e) (hX : |X| ≤ 1) (he : e ≤ 1) :
    Apx (x *ᶠ lit (572958 / 10000)) (X * (572958 / 10000)) (573 / 10 * e + 1 / 10 ^ 5) := by
  have hη := rη_le
  norm_num at hη
  have e0 : 0 ≤ e := (abs_nonneg _).trans hx.2
  obtain ⟨hf, hn⟩ := Literals.lit_near (F := F) (572958 / 10000) (by norm_num)
  have hb := hn.bound
  have h1 : Apx (lit (572958 / 10000) : F) (572958 / 10000) (4 / 10 ^ 6) := by
    refine ⟨hf, ?_⟩
    generalize ⟪(lit (572958 / 10000) : F)⟫ = t at *
    norm_num at hb ⊢
    linarith
  refine (hx.mul h1 (A := 1) (B := 572958 / 10000) hX (by norm_num) (by norm_num; linarith)).mono ?_
  norm_num
  linarith

/-- The angles of a table of attitudes near rotations about `y`. -/
theorem eulerTable32 [A : Arcs F] [W : Wraps F] [Literals F] {m : Mat F} {k : Nat} {x : Nat → Nat → F} {a δ : Nat → ℝ}
    (hm : MatIs m 4 k x) (hf : ∀ i j, i < 4 → j < k → Finite (x i j))
    (hd : ∀ n, n < k → ‖colF x n - yQ (a n)‖ ≤ δ n ∧ ‖colF x n‖ ≤ 1001 / 1000)
    (hδ : ∀ n, n < k → δ n ≤ 1 / 100 ∧ 0 ≤ a n ∧ a n ≤ 1 / 5) :
    ∃ r G, eulerTable m k = .ok r ∧ MatIs r 3 k G ∧ ∀ n, n < k → ∀ i, i < 3 →
      Apx (G i n) (seq3 0 (2 * a n * (572958 / 10000)) 0 i) (287 * δ n + 2 / 10 ^ 4) := by
  have hk1 := hm.cpos
  have hk4 := hm.cle
  have key := foldRange_inv (ε := LinalgError) (fun n r => do
      let q ← m.colToVector n
      let (phi, theta, psi) ← Quat.convertToEuler q
      let v ← exec Vec.new (Vec.init 3)
      let v ← exec v (Vec.setElement 0 (phi *ᶠ lit (572958 / 10000)))
      let v ← exec v (Vec.setElement 1 (theta *ᶠ lit (572958 / 10000)))
      let v ← exec v (Vec.setElement 2 (psi *ᶠ lit (572958 / 10000)))
      exec r (Mat.setCol v n))
    (fun n r => Cols32 r k n (fun n => seq3 0 (2 * a n * (572958 / 10000)) 0) fun n => 287 * δ n + 2 / 10 ^ 4) 0 k (by omega)
    (Mat.zeros 3 k) ⟨_, Mat.zeros_is (by omega) (by omega) hk1 hk4, fun _ _ _ hj => absurd hj (by omega)⟩ (by
      rintro n r - hn hr
      obtain ⟨q, e1, h1⟩ := Mat.colToVector_ok (j := n) hm hn fun i hi => hf i n hi hn
      obtain ⟨d1, d2⟩ := hd n hn
      obtain ⟨d3, d4, d5⟩ := hδ n hn
      obtain ⟨X, Y, Z, e2, b1, b2, b3⟩ := eulerY32 h1 (fun i hi => hf i n hi hn) d1 d3 d2 d4 d5
      have d0 : 0 ≤ δ n := (norm_nonneg _).trans d1
      have c1 := degrees32 b1 (by norm_num) (by norm_num; linarith)
      have c2 := degrees32 b2 (by rw [abs_of_nonneg (by linarith)]; linarith) (by norm_num; linarith)
      have c3 := degrees32 b3 (by norm_num) (by norm_num; linarith)
      rw [zero_mul] at c1 c3
      obtain ⟨v1, v2, v3, e3, e4, e5, h5⟩ := stored3 c1.1 c2.1 c3.1
      obtain ⟨r', e6, h6⟩ := hr.next h5 (forall_lt_three.mpr ⟨c1.mono (by norm_num; linarith), c2.mono (by norm_num; linarith),
        c3.mono (by norm_num; linarith)⟩) hn
      refine ⟨r', ?_, h6⟩
      rw [e1, Res.ok_bind, e2, Res.ok_bind]
      simp only
      rw [Vec.init_new (by omega) (by omega), Res.ok_bind, e3, Res.ok_bind, e4, Res.ok_bind, e5, Res.ok_bind, e6])
  obtain ⟨r, e, G, hG, hb⟩ := key
  refine ⟨r, G, ?_, hG, fun n hn i hi => hb i n hi hn⟩
  unfold eulerTable
  rw [Mat.init_new (by omega) (by omega) hk1 hk4, Res.ok_bind, e]

/-! ### The simulated sensors -/

open Ahrs (maxStep)

/-- Three numbers of a column. -/
noncomputable def col3 (G : Nat → Nat → F) (n : Nat) : Quaternion ℝ := mkQ 0 ⟪G 0 n⟫ ⟪G 1 n⟫ ⟪G 2 n⟫

/-- The vector part of a quaternion. -/
noncomputable def vec3 (q : Quaternion ℝ) : Quaternion ℝ := mkQ 0 q.imI q.imJ q.imK

theorem vec3_norm (q : Quaternion ℝ) : ‖vec3 q‖ ≤ ‖q‖ := by
  rw [quat_norm, quat_norm]
  refine Real.sqrt_le_sqrt ?_
  rw [Quaternion.normSq_def', Quaternion.normSq_def']
  simp only [vec3, mkQ_re, mkQ_imI, mkQ_imJ, mkQ_imK]
  nlinarith [sq_nonneg q.re]

theorem vec3_sub (p q : Quaternion ℝ) : vec3 (p - q) = vec3 p - vec3 q := by
  apply Quaternion.ext <;> simp [vec3]

theorem col3_near {G : Nat → Nat → F} {n : Nat} {q : Quaternion ℝ} {e : ℝ}
    (h : ∀ i, i < 3 → |⟪G i n⟫ - part q i| ≤ e) : ‖col3 G n - vec3 q‖ ≤ 7 / 4 * e := by
  obtain ⟨h0, h1, h2⟩ := forall_lt_three.mp h
  have e1 : col3 G n - vec3 q = mkQ 0 (⟪G 0 n⟫ - q.imI) (⟪G 1 n⟫ - q.imJ) (⟪G 2 n⟫ - q.imK) := by
    apply Quaternion.ext <;> simp [col3, vec3]
  rw [e1]
  exact norm_three h0 h1 h2

/-- How far an attitude of the table may be off. -/
noncomputable def attE (n : Nat) : ℝ := 32 / 10 ^ 7 * ((7 / 2) ^ (n + 1) - 1)

theorem attE_le (n : Nat) : attE n ≤ 112 / 10 ^ 7 * (7 / 2) ^ n ∧ attE (n + 1) ≤ 392 / 10 ^ 7 * (7 / 2) ^ n := by
  unfold attE
  have e1 : ((7 : ℝ) / 2) ^ (n + 1) = 7 / 2 * (7 / 2) ^ n := by ring
  have e2 : ((7 : ℝ) / 2) ^ (n + 1 + 1) = 49 / 4 * (7 / 2) ^ n := by ring
  rw [e1, e2]
  constructor <;> linarith

/-- The table of attitudes and the readings simulated from it. -/
theorem sim32 [Trig F] [Acos F] [Literals F] {d : Nat → Nat} (hd : ∀ k, d k < 2 ^ 64 - 1) {va vm : Vec F} {fa fm : Nat → F}
    (ha : VecIs va 4 fa) (hm : VecIs vm 4 fm) (Fa : ∀ i, i < 4 → Finite (fa i)) (Fm : ∀ i, i < 4 → Finite (fm i))
    (na : ‖qval fa‖ ≤ 2 ^ 40) (nm : ‖qval fm‖ ≤ 2 ^ 40) (na1 : 1 ≤ ‖qval fa‖) (nm1 : 1 ≤ ‖qval fm‖) :
    ∃ A s x G C M, Ahrs.generateRandomAttitudes d 4 = .ok A ∧ MatIs A 4 4 x ∧
      (∀ n, n < 4 → (∀ i, i < 4 → Finite (x i n)) ∧ ‖colF x n - yQ ((n + 1) * maxStep)‖ ≤ attE n ∧
        ‖colF x n‖ ≤ 1001 / 1000) ∧
      simulate A va vm (lit (1 / 100) : F) 3 = .ok s ∧ MatIs s.gyr 3 3 G ∧ MatIs s.acc 3 3 C ∧ MatIs s.mag 3 3 M ∧
      ∀ n, n < 3 → (∀ i, i < 3 → Finite (G i n) ∧ Finite (C i n) ∧ Finite (M i n)) ∧
        ‖col3 G n - mkQ 0 0 (200 * Real.sin maxStep) 0‖ ≤ 105 / 10 ^ 4 * (7 / 2) ^ n ∧
        ‖col3 C n - vec3 (yQ ((n + 1) * maxStep) * qval fa * star (yQ ((n + 1) * maxStep)))‖ ≤
          3 / 10 ^ 5 * (7 / 2) ^ n * ‖qval fa‖ ∧
        ‖col3 M n - vec3 (yQ ((n + 1) * maxStep) * qval fm * star (yQ ((n + 1) * maxStep)))‖ ≤
          3 / 10 ^ 5 * (7 / 2) ^ n * ‖qval fm‖ := by
  obtain ⟨A, x, eA, hx, hh⟩ := Ahrs.C131_values (F := F) hd (show 1 ≤ 4 by omega) le_rfl
  obtain ⟨hτ, h200⟩ := period100 (F := F)
  have dist : ∀ n, n < 4 → ‖colF x n - yQ ((n + 1) * maxStep)‖ ≤ attE n := fun n hn => by
    have h1 : (1 : ℝ) ≤ (7 / 2) ^ (n + 1) := one_le_pow₀ (by norm_num)
    have := qval_dist (f := fun i => x i n)
      (G := seq4 (Real.cos ((n + 1) * maxStep)) 0 (Real.sin ((n + 1) * maxStep)) 0) (a := 0)
      (b := 16 / 10 ^ 7 * ((7 / 2) ^ (n + 1) - 1)) le_rfl (by
        have : 0 ≤ (7 / 2 : ℝ) ^ (n + 1) - 1 := by linarith
        positivity) fun i hi => by
        rw [zero_mul, zero_add]
        exact (hh n hn i hi).2
    refine this.trans (le_of_eq ?_)
    unfold attE
    ring
  have attB : ∀ n, n < 4 → attE n ≤ 48 / 10 ^ 5 := fun n hn => by
    have b2 : (7 / 2 : ℝ) ^ (n + 1) ≤ (7 / 2) ^ 4 := pow_le_pow_right₀ (by norm_num) (by omega)
    unfold attE
    norm_num at b2 ⊢
    linarith
  have len : ∀ n, n < 4 → ‖colF x n‖ ≤ 1 + 48 / 10 ^ 5 := fun n hn => by
    have := norm_add_le (yQ ((n + 1) * maxStep)) (colF x n - yQ ((n + 1) * maxStep))
    rw [add_sub_cancel, yQ_norm] at this
    linarith [dist n hn, attB n hn]
  obtain ⟨s, G, C, M, e, hG, hC, hM, key⟩ := C132_sensors (k := 3) hx (by omega)
    (fun i j hi hj => (hh j hj i hi).1) (fun j hj => (len j hj).trans (by norm_num)) hτ ha hm Fa Fm na nm
  have field : ∀ {g : Quaternion ℝ} {c : Nat → Nat → F} {n : Nat}, n < 3 → 1 ≤ ‖g‖ → (∀ i, i < 3 →
      |⟪c i n⟫ - part (colF x n * g * star (colF x n)) i| ≤ 49 / 2 ^ 24 * (‖colF x n‖ ^ 2 * ‖g‖) + 1 / 2 ^ 140) →
      ‖col3 c n - vec3 (yQ ((n + 1) * maxStep) * g * star (yQ ((n + 1) * maxStep)))‖ ≤
        3 / 10 ^ 5 * (7 / 2) ^ n * ‖g‖ := fun {g c n} hn g1 hc => by
    have d0 := (dist n (by omega)).trans (attE_le n).1
    have l0 := len n (by omega)
    have y1 := yQ_norm ((n + 1) * maxStep)
    have k1 := col3_near hc
    generalize colF x n = q at *
    generalize yQ ((n + 1) * maxStep) = y at *
    have e : q * g * star q - y * g * star y = (q - y) * g * star q + y * g * star (q - y) := by
      rw [star_sub, mul_sub, sub_mul, sub_mul]
      abel
    have p1 : (1 : ℝ) ≤ (7 / 2) ^ n := one_le_pow₀ (by norm_num)
    generalize ((7 : ℝ) / 2) ^ n = P at *
    have t : ‖vec3 (q * g * star q) - vec3 (y * g * star y)‖ ≤ 22411 / 10 ^ 9 * P * ‖g‖ := by
      rw [← vec3_sub, e]
      refine (vec3_norm _).trans ((norm_add_le _ _).trans ?_)
      rw [norm_mul, norm_mul, norm_mul, norm_mul, norm_star, norm_star, y1]
      have g0 := norm_nonneg g
      have t1 : ‖q - y‖ * ‖g‖ * ‖q‖ ≤ 112 / 10 ^ 7 * P * ‖g‖ * (1 + 48 / 10 ^ 5) := by gcongr
      have t2 : 1 * ‖g‖ * ‖q - y‖ ≤ 1 * ‖g‖ * (112 / 10 ^ 7 * P) := by gcongr
      have : 0 ≤ P * ‖g‖ := by positivity
      norm_num at t1 t2 ⊢
      nlinarith
    refine (norm_sub_le_norm_sub_add_norm_sub _ (vec3 (q * g * star q)) _).trans ((add_le_add k1 t).trans ?_)
    have t3 : ‖q‖ ^ 2 * ‖g‖ ≤ (1 + 48 / 10 ^ 5) ^ 2 * ‖g‖ := by gcongr
    have t4 : ‖g‖ ≤ P * ‖g‖ := by nlinarith
    norm_num at t3 ⊢
    nlinarith
  refine ⟨A, s, x, G, C, M, eA, hx, fun n hn => ⟨fun i hi => (hh n hn i hi).1, dist n hn, (len n hn).trans (by norm_num)⟩, e, hG, hC, hM,
    fun n hn => ?_⟩
  obtain ⟨q, p, eq, ep, kk⟩ := key n hn
  refine ⟨fun i hi => ⟨(kk i hi).1, (kk i hi).2.1, (kk i hi).2.2.1⟩, ?_, field hn na1 fun i hi => ?_, field hn nm1 fun i hi => ?_⟩
  · have d0 := (dist n (by omega)).trans (attE_le n).1
    have d1 := (dist (n + 1) (by omega)).trans (attE_le n).2
    have l0 := len n (by omega)
    have l1 := len (n + 1) (by omega)
    change q = colF x n at eq
    change p = colF x (n + 1) at ep
    rw [← eq] at d0 l0
    rw [← ep] at d1 l1
    have ey : star (yQ ((n + 1) * maxStep)) * yQ (((n + 1 : ℕ) + 1) * maxStep) = yQ maxStep := by
      rw [yQ_star, yQ_mul]
      congr 1
      push_cast
      ring
    have ez : yQ (((n + 1 : ℕ) + 1) * maxStep) = yQ ((n + 1) * maxStep) * yQ maxStep := by
      rw [yQ_mul]
      congr 1
      push_cast
      ring
    have z0 := (dist n (by omega)).trans (attB n (by omega))
    have z1 := (dist (n + 1) (by omega)).trans (attB (n + 1) (by omega))
    rw [← eq] at z0
    rw [← ep] at z1
    have y0 := yQ_norm ((n + 1) * maxStep)
    generalize yQ ((n + 1) * maxStep) = a at *
    generalize yQ (((n + 1 : ℕ) + 1) * maxStep) = b at *
    have e1 : star q * p - yQ maxStep = star (q - a) * p + star a * (p - b) := by
      rw [← ey, star_sub, sub_mul, mul_sub]
      abel
    have p1 : (1 : ℝ) ≤ (7 / 2) ^ n := one_le_pow₀ (by norm_num)
    generalize ((7 : ℝ) / 2) ^ n = P at *
    have t : ‖star q * p - yQ maxStep‖ ≤ 5041 / 10 ^ 8 * P := by
      rw [e1]
      refine (norm_add_le _ _).trans ?_
      rw [norm_mul, norm_mul, norm_star, norm_star, y0]
      have t1 : ‖q - a‖ * ‖p‖ ≤ 112 / 10 ^ 7 * P * (1 + 48 / 10 ^ 5) := by gcongr
      norm_num at t1 d1 ⊢
      linarith
    obtain ⟨T, eT⟩ : ∃ T : ℝ, T = 2 / ⟪(lit (1 / 100) : F)⟫ := ⟨_, rfl⟩
    have eT' : 2 / |⟪(lit (1 / 100) : F)⟫| = |T| := by rw [eT, abs_div, abs_of_pos (by norm_num : (0 : ℝ) < 2)]
    rw [← eT] at h200
    have hT : |T| ≤ 200 + 1 / 1000 := le_of_dist (by norm_num) h200
    have k1 := col3_near fun i hi => (kk i hi).2.2.2.1
    rw [eT', ← eT] at k1
    have sm := Ahrs.maxStep_bounds
    have y2 : ‖yQ maxStep - 1‖ ≤ 1 / 10 := by
      have h0 : 0 ≤ maxStep := by linarith [sm.1]
      have s1 : Real.sin maxStep ≤ maxStep := Real.sin_le h0
      have s0 : 0 ≤ Real.sin maxStep := Real.sin_nonneg_of_nonneg_of_le_pi h0 (by linarith [Real.pi_gt_three, sm.2])
      have c1 := Real.one_sub_sq_div_two_le_cos (x := maxStep)
      rw [quat_norm]
      refine Real.sqrt_le_iff.mpr ⟨by norm_num, ?_⟩
      rw [Quaternion.normSq_def']
      simp
      nlinarith [Real.sin_sq_add_cos_sq maxStep]
    have pq : ‖p - q‖ ≤ 12 / 100 := by
      have e2 : b - a = a * (yQ maxStep - 1) := by rw [ez, mul_sub, mul_one]
      have e3 : ‖b - a‖ ≤ 1 / 10 := by rw [e2, norm_mul, y0, one_mul]; exact y2
      have u1 := norm_sub_le_norm_sub_add_norm_sub p b q
      have u2 := norm_sub_le_norm_sub_add_norm_sub b a q
      rw [norm_sub_rev a q] at u2
      norm_num at z0 z1
      linarith
    have v1 : vec3 (T • (star q * p)) - mkQ 0 0 (200 * Real.sin maxStep) 0 =
        vec3 (T • (star q * p - yQ maxStep) + (T - 200) • (yQ maxStep - 1)) := by
      apply Quaternion.ext <;> simp [vec3]
      ring
    have t2 : ‖vec3 (T • (star q * p)) - mkQ 0 0 (200 * Real.sin maxStep) 0‖ ≤
        (200 + 1 / 1000) * (5041 / 10 ^ 8 * P) + 1 / 1000 * (1 / 10) := by
      rw [v1]
      refine (vec3_norm _).trans ((norm_add_le _ _).trans ?_)
      rw [norm_smul, norm_smul, Real.norm_eq_abs, Real.norm_eq_abs]
      gcongr
    have t3 : |T| * (‖q‖ * ‖p - q‖) ≤ (200 + 1 / 1000) * ((1 + 48 / 10 ^ 5) * (12 / 100)) := by gcongr
    refine (norm_sub_le_norm_sub_add_norm_sub _ (vec3 (T • (star q * p))) _).trans ((add_le_add k1 t2).trans ?_)
    norm_num at t3 ⊢
    linarith
  · have := (kk i hi).2.2.2.2.1
    rw [eq] at this
    exact this
  · have := (kk i hi).2.2.2.2.2
    rw [eq] at this
    exact this

/-! ### The AR filter -/

theorem plain_upTo : (GyrometerConfig.default : GyrometerConfig F).UpTo 1 := by
  intro k hk
  have : k = lit 1 ∨ k = lit 0 := by
    simp [GyrometerConfig.default] at hk
    tauto
  rcases this with rfl | rfl
  · rw [R.one_val]; norm_num
  · rw [R.zero_val]; norm_num

theorem plain_rate (x : F × F × F) :
    (GyrometerConfig.default : GyrometerConfig F).rateOf x = mkQ 0 ⟪x.1⟫ ⟪x.2.1⟫ ⟪x.2.2⟫ := by
  simp only [GyrometerConfig.rateOf, GyrometerConfig.real, GyrometerConfig.rate, GyrometerConfig.default, R.zero_val, R.one_val]
  congr 1 <;> ring

theorem comp_le3 {x y z c r : ℝ} (h : ‖mkQ 0 x y z - mkQ 0 0 c 0‖ ≤ r) : |x| ≤ r ∧ |y - c| ≤ r ∧ |z| ≤ r := by
  have r0 : 0 ≤ r := (norm_nonneg _).trans h
  have hN : ‖mkQ 0 x y z - mkQ 0 0 c 0‖ ^ 2 = x ^ 2 + (y - c) ^ 2 + z ^ 2 := by
    rw [quat_norm_sq]
    simp
  have hN' : x ^ 2 + (y - c) ^ 2 + z ^ 2 ≤ r ^ 2 := by rw [← hN]; gcongr
  exact ⟨abs_le_of_sq_le_sq (by nlinarith [sq_nonneg (y - c), sq_nonneg z]) r0,
    abs_le_of_sq_le_sq (by nlinarith [sq_nonneg x, sq_nonneg z]) r0,
    abs_le_of_sq_le_sq (by nlinarith [sq_nonneg (y - c), sq_nonneg x]) r0⟩

theorem plain_within {x y z : F} (hx : Finite x) (hy : Finite y) (hz : Finite z) {c r : ℝ}
    (h : ‖mkQ 0 ⟪x⟫ ⟪y⟫ ⟪z⟫ - mkQ 0 0 c 0‖ ≤ r) (r1 : r ≤ 1) (c0 : 1 ≤ c) (c1 : c ≤ 10) :
    (GyrometerConfig.default : GyrometerConfig F).Within 11 (x, y, z) := by
  obtain ⟨h1, h2, h3⟩ := comp_le3 h
  refine ⟨⟨hx, hy, hz⟩, ?_, ?_, ?_⟩
  · show |⟪x⟫ - ⟪(lit 0 : F)⟫| ≤ 11
    rw [R.zero_val, sub_zero]
    linarith
  · show |⟪y⟫ - ⟪(lit 0 : F)⟫| ≤ 11
    rw [R.zero_val, sub_zero]
    exact (le_of_dist (a := 10) (by rw [abs_of_pos (by linarith)]; exact c1) h2).trans (by linarith)
  · show |⟪z⟫ - ⟪(lit 0 : F)⟫| ≤ 11
    rw [R.zero_val, sub_zero]
    linarith

/-- A step about `y`. -/
theorem eulerUnit_y (t : ℝ) : eulerUnit (t • mkQ 0 0 1 0) = yQ (Real.arctan t) := by
  have e : (1 : Quaternion ℝ) + t • mkQ 0 0 1 0 = mkQ 1 0 t 0 := by apply Quaternion.ext <;> simp
  unfold eulerUnit
  rw [e, (plane one_pos).2, div_one]

theorem half_period [Literals F] : |⟪(lit (1 / 100) : F)⟫ / 2 - 1 / 200| ≤ 3 / 10 ^ 8 := by
  have h := (period100 (F := F)).2
  obtain ⟨t, et⟩ : ∃ t, t = ⟪(lit (1 / 100) : F)⟫ := ⟨_, rfl⟩
  have h0 := (period100 (F := F)).1.ne
  rw [← et] at h h0 ⊢
  have e : t / 2 - 1 / 200 = -(2 / t - 200) * (t / 400) := by field_simp; ring
  obtain ⟨l, r⟩ := abs_le.mp h
  have tp : 0 < t := by
    by_contra hc
    have : 2 / t ≤ 0 := div_nonpos_of_nonneg_of_nonpos (by norm_num) (not_lt.mp hc)
    norm_num at l
    linarith
  have t1 : t ≤ 11 / 1000 := by
    have : 199 ≤ 2 / t := by norm_num at l; linarith
    rw [le_div_iff₀ tp] at this
    linarith
  rw [e, abs_mul, abs_neg, abs_of_pos (by positivity : 0 < t / 400)]
  calc |2 / t - 200| * (t / 400) ≤ 1 / 1000 * (11 / 1000 / 400) := by gcongr
    _ ≤ _ := by norm_num

/-- One update of the AR filter of the test. -/
theorem arStep32 [Halves F] [Literals F] {a : ARInit F} {s : AR F} (hs : AR.Started a s) (hm : a.method = .Euler)
    (ht : a.ts = lit (1 / 100)) (hc : a.config = GyrometerConfig.default) {A : Quaternion ℝ}
    (hA : AR.ShowsF s fun f => qval f = A) (h1 : 1 / 2 ≤ ‖A‖) (h2 : ‖A‖ ≤ 2) {p E r c : ℝ}
    (hE : ‖‖A‖⁻¹ • A - yQ p‖ ≤ E) {x y z : F} (hx : Finite x) (hy : Finite y) (hz : Finite z)
    (hr : ‖mkQ 0 ⟪x⟫ ⟪y⟫ ⟪z⟫ - mkQ 0 0 c 0‖ ≤ r) (r1 : r ≤ 1) (c0 : 2 ≤ c) (c1 : c ≤ 10) :
    ∃ s', AR.update x y z s = (.ok (), s') ∧ AR.Started a s' ∧ AR.ShowsF s' fun f => NearUnit f ∧
      ‖qval f - yQ (p + Real.arctan (c / 200))‖ ≤ E + 8 / 10 ^ 6 + 1002 / 10 ^ 5 * r := by
  obtain ⟨⟨f, hf⟩, -, -, -, e4⟩ := hs.ready
  have hw := plain_within hx hy hz hr r1 (by linarith) c1
  rw [← hc] at hw
  obtain ⟨u, v, w, hrd, d1, -⟩ := GyrometerConfig.reads (C := 1) hf.gyr e4 hw (by rw [hc]; exact plain_upTo) (by norm_num) (by norm_num)
    (by norm_num)
  rw [hc, plain_rate] at d1
  simp only at d1
  have hτ := half_period (F := F)
  have r0 : 0 ≤ r := (norm_nonneg _).trans hr
  obtain ⟨ω, hω⟩ : ∃ ω, ω = mkQ 0 ⟪u⟫ ⟪v⟫ ⟪w⟫ := ⟨_, rfl⟩
  rw [← hω] at d1
  have d2 : ‖ω - c • mkQ 0 0 1 0‖ ≤ r + 45 / 10 ^ 6 := by
    have e : (c • mkQ 0 0 1 0 : Quaternion ℝ) = mkQ 0 0 c 0 := by rw [mkQ_smul]; simp
    rw [e]
    refine (norm_sub_le_norm_sub_add_norm_sub ω (mkQ 0 ⟪x⟫ ⟪y⟫ ⟪z⟫) _).trans ?_
    norm_num at d1 ⊢
    linarith
  have nj : ‖(mkQ 0 0 1 0 : Quaternion ℝ)‖ = 1 := by rw [norm_mkQ]; norm_num
  have nc : ‖c • (mkQ 0 0 1 0 : Quaternion ℝ)‖ = c := by
    rw [norm_smul, nj, mul_one, Real.norm_eq_abs, abs_of_pos (by linarith)]
  have hlo : 9 / 10 ≤ ‖ω‖ := by
    have := norm_sub_norm_le (c • mkQ 0 0 1 0) ω
    rw [norm_sub_rev, nc] at this
    norm_num at d2
    linarith
  have hhi : ‖ω‖ ≤ 12 := by
    have := norm_sub_norm_le ω (c • mkQ 0 0 1 0)
    rw [nc] at this
    norm_num at d2
    linarith
  rw [← ht] at hτ
  obtain ⟨τ, eτ⟩ : ∃ τ, τ = ⟪a.ts⟫ / 2 := ⟨_, rfl⟩
  rw [← eτ] at hτ
  have hτ2 : |τ| ≤ 501 / 10 ^ 5 := (le_of_dist (a := 1 / 200) (by norm_num) hτ).trans (by norm_num)
  have hts : |⟪a.ts⟫| ≤ 2 / 100 := by
    have : |⟪a.ts⟫| = 2 * |τ| := by rw [eτ, abs_div, abs_two]; ring
    rw [this]
    norm_num at hτ2
    linarith
  obtain ⟨s', e, k⟩ := C106_step hs hm (by rw [ht]; exact period100.1.fin) hA h1 h2 hrd hω (by norm_num; linarith)
    (hhi.trans (by norm_num)) ((mul_le_mul hhi hts (abs_nonneg _) (by norm_num)).trans (by norm_num)) (hts.trans (by norm_num)) rfl
  rw [← eτ] at k
  have hs' := hs.step x y z
  rw [e] at hs'
  refine ⟨s', e, hs', ?_⟩
  obtain ⟨v', f', k1, k2, k3, k4, k5⟩ := k
  refine ⟨v', f', k1, k2, k3, k4, ?_⟩
  have hY : A + τ • (ω * A) = (1 + τ • ω) * A := by rw [add_mul, one_mul, smul_mul_assoc]
  have hU : ‖A + τ • (ω * A)‖⁻¹ • (A + τ • (ω * A)) = eulerUnit (τ • ω) * (‖A‖⁻¹ • A) := by
    rw [hY, norm_mul, mul_inv, eulerUnit, smul_mul_smul_comm]
  rw [hU] at k5
  have hω0 : ω.re = 0 := by rw [hω]; rfl
  have ey : yQ (p + Real.arctan (c / 200)) = eulerUnit ((c / 200) • mkQ 0 0 1 0) * yQ p := by
    rw [eulerUnit_y, yQ_mul, add_comm]
  have ed := eulerUnit_dist (v := τ • ω) (w := (c / 200) • mkQ 0 0 1 0) (by simp [hω0]) (by simp)
  have e5 : τ • ω - (c / 200) • mkQ 0 0 1 0 = τ • (ω - c • mkQ 0 0 1 0) + (τ - 1 / 200) • (c • mkQ 0 0 1 0) := by
    rw [smul_sub, sub_smul, smul_smul, smul_smul, show 1 / 200 * c = c / 200 by ring]
    abel
  have e6 : ‖τ • ω - (c / 200) • mkQ 0 0 1 0‖ ≤ 501 / 10 ^ 5 * (r + 45 / 10 ^ 6) + 3 / 10 ^ 8 * 10 := by
    rw [e5]
    refine (norm_add_le _ _).trans ?_
    rw [norm_smul, norm_smul, Real.norm_eq_abs, Real.norm_eq_abs, nc]
    gcongr
  have nU := norm_eulerUnit (v := τ • ω) (by simp [hω0])
  have e7 : eulerUnit (τ • ω) * (‖A‖⁻¹ • A) - eulerUnit ((c / 200) • mkQ 0 0 1 0) * yQ p =
      eulerUnit (τ • ω) * (‖A‖⁻¹ • A - yQ p) + (eulerUnit (τ • ω) - eulerUnit ((c / 200) • mkQ 0 0 1 0)) * yQ p := by
    rw [mul_sub, sub_mul]
    abel
  have e8 : ‖eulerUnit (τ • ω) * (‖A‖⁻¹ • A) - eulerUnit ((c / 200) • mkQ 0 0 1 0) * yQ p‖ ≤
      E + 2 * (501 / 10 ^ 5 * (r + 45 / 10 ^ 6) + 3 / 10 ^ 8 * 10) := by
    rw [e7]
    refine (norm_add_le _ _).trans ?_
    rw [norm_mul, norm_mul, nU, yQ_norm, one_mul, mul_one]
    linarith
  rw [ey]
  refine (norm_sub_le_norm_sub_add_norm_sub _ (eulerUnit (τ • ω) * (‖A‖⁻¹ • A)) _).trans ((add_le_add k5 e8).trans ?_)
  norm_num
  linarith

end AhrsTest
end Verif
