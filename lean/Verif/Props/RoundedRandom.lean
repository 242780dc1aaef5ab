import Verif.Props.RoundedInterp
import Verif.Props.TempDftRounded
import Verif.Props.Random

/-
C131: `generate_random_attitudes` (open_ahrs/src/common.rs:73-163) in binary32.
-/

set_option linter.unusedSectionVars false
set_option linter.unusedSimpArgs false

namespace Verif
open Scalar Finset

namespace Ahrs

variable {F : Type} [Scalar F] [R : Rounded F]

/-! ### Errors that stay linear -/

theorem mul_lin {x y : F} {X Y a b A B β M : ℝ} (hx : Apx x X a) (hy : Apx y Y b) (hA : |X| ≤ A) (hB : |Y| ≤ B)
    (hb : b ≤ β) (hM : A * b + a * (B + β) + (A * B + 1) / 16777216 ≤ M) (hA2 : A ≤ 10) (hB2 : B ≤ 10) (ha2 : a ≤ 1 / 100)
    (hb2 : β ≤ 1 / 100) : Apx (x *ᶠ y) (X * Y) (M + rη) := by
  have ha : 0 ≤ a := (abs_nonneg _).trans hx.2
  have hb0 : 0 ≤ b := (abs_nonneg _).trans hy.2
  have hA0 : 0 ≤ A := (abs_nonneg _).trans hA
  have hB0 : 0 ≤ B := (abs_nonneg _).trans hB
  have h1 : A * b + a * (B + b) ≤ A * b + a * (B + β) := by gcongr
  have h2 : A * b ≤ 10 * (1 / 100) := mul_le_mul hA2 (by linarith) hb0 (by norm_num)
  have h3 : a * (B + b) ≤ 1 / 100 * (10 + 1 / 100) := mul_le_mul ha2 (by linarith) (by linarith) (by norm_num)
  have h4 : A * B ≤ 10 * 10 := mul_le_mul hA2 hB2 hB0 (by norm_num)
  refine (hx.mul hy hA hB (by norm_num at *; linarith)).mono ?_
  have h5 : (A * B + (A * b + a * (B + b))) / 16777216 ≤ (A * B + 1) / 16777216 := by
    refine div_le_div_of_nonneg_right ?_ (by norm_num)
    norm_num at *
    linarith
  linarith

theorem add_lin {x y : F} {X Y a b B M : ℝ} (hx : Apx x X a) (hy : Apx y Y b) (hB : |X + Y| ≤ B)
    (hM : a + b + (B + 1 / 10) / 16777216 ≤ M) (hB2 : B ≤ 100) (ha2 : a ≤ 1 / 100) (hb2 : b ≤ 1 / 100) :
    Apx (x +ᶠ y) (X + Y) (M + rη) := by
  refine (hx.add hy hB (by norm_num; linarith)).mono ?_
  have h5 : (B + (a + b)) / 16777216 ≤ (B + 1 / 10) / 16777216 := by
    refine div_le_div_of_nonneg_right ?_ (by norm_num)
    linarith
  linarith

theorem sin_lin [T : Trig F] {x : F} {X a M : ℝ} (hx : Apx x X a) (hM : a + 1 / 2 ^ 22 ≤ M) :
    Apx (Scalar.sin x) (Real.sin X) M :=
  ⟨T.sin_finite hx.1, (dist_trans (T.sin_near hx.1) ((Real.abs_sin_sub_sin_le _ _).trans hx.2)).trans (by linarith)⟩

theorem cos_lin [T : Trig F] {x : F} {X a M : ℝ} (hx : Apx x X a) (hM : a + 1 / 2 ^ 22 ≤ M) :
    Apx (Scalar.cos x) (Real.cos X) M :=
  ⟨T.cos_finite hx.1, (dist_trans (T.cos_near hx.1) ((Real.abs_cos_sub_cos_le _ _).trans hx.2)).trans (by linarith)⟩

/-! ### The target -/

theorem target32 [T : Trig F] [L : Literals F] {d1 d2 d3 : Nat} (h1 : d1 < 2 ^ 64 - 1) (h2 : d2 < 2 ^ 64 - 1)
    (h3 : d3 < 2 ^ 64 - 1) :
    ∃ t : Nat → F, (randomTarget d1 d2 d3 : F × F × F × F) = (t 0, t 1, t 2, t 3) ∧ Apx (t 0) 0 (1 / 10 ^ 20) ∧
      Apx (t 1) 0 (45 / 10 ^ 8) ∧ Apx (t 2) 1 (45 / 10 ^ 8) ∧ Apx (t 3) 0 (1 / 10 ^ 20) := by
  have hη := rη_le
  have hη0 := rη_pos.le
  have hp := TempDsp.pi_apx (F := F)
  change Apx (PI : F) Real.pi (188 / 10 ^ 9) at hp
  have hpi : |Real.pi| ≤ 4 := by rw [abs_of_pos Real.pi_pos]; linarith [Real.pi_le_four]
  have s1 : Apx (Scalar.sqrt (lit 1 -ᶠ lit 0 : F)) 1 (1 / 10 ^ 7) := by
    have a := (Apx.one (F := F)).sub Apx.zero (B := 1) (by norm_num) (by norm_num)
    have a : Apx (lit 1 -ᶠ lit 0 : F) (1 ^ 2) (6 / 10 ^ 8) := by
      rw [one_pow]
      rw [sub_zero] at a
      exact a.mono (by norm_num at hη ⊢; linarith)
    exact (a.sqrt one_pos (by norm_num) (E := 32 / 10 ^ 9) (by norm_num)).mono (by norm_num)
  have s2 : Apx (Scalar.sqrt (lit 0 : F)) 0 0 := by
    refine ⟨R.sqrt_finite R.zero_finite (by rw [R.zero_val]), ?_⟩
    have := R.sqrt_near (F := F) (x := lit 0) R.zero_finite (by rw [R.zero_val])
    rw [R.zero_val, Real.sqrt_zero, mul_zero] at this
    exact this
  have t0 : Apx (lit 2 *ᶠ PI *ᶠ lit 0 : F) 0 (1 / 10 ^ 44) := by
    have a := (Apx.two (F := F)).mul hp (A := 2) (B := 4) (by norm_num) hpi (by norm_num)
    have b := a.mul Apx.zero (A := 8) (B := 0) (by
      rw [abs_mul, abs_of_pos (by norm_num : (0 : ℝ) < 2)]; linarith) (by norm_num) (by norm_num)
    rw [mul_zero] at b
    exact b.mono (by norm_num at hη ⊢; linarith)
  have c0 : Apx (Scalar.cos (lit 2 *ᶠ PI *ᶠ lit 0 : F)) 1 (25 / 10 ^ 8) := by
    have := cos_lin t0 (M := 25 / 10 ^ 8) (by norm_num)
    rwa [Real.cos_zero] at this
  have n0 : Apx (Scalar.sin (lit 2 *ᶠ PI *ᶠ lit 0 : F)) 0 (25 / 10 ^ 8) := by
    have := sin_lin t0 (M := 25 / 10 ^ 8) (by norm_num)
    rwa [Real.sin_zero] at this
  have r0 := s2.mul c0 (A := 0) (B := 1) (by norm_num) (by norm_num) (by norm_num)
  have r1 := s1.mul n0 (A := 1) (B := 0) (by norm_num) (by norm_num) (by norm_num)
  have r2 := s1.mul c0 (A := 1) (B := 1) (by norm_num) (by norm_num) (by norm_num)
  have r3 := s2.mul n0 (A := 0) (B := 0) (by norm_num) (by norm_num) (by norm_num)
  rw [zero_mul] at r0 r3
  rw [mul_zero] at r1
  rw [mul_one] at r2
  refine ⟨seq4 (Scalar.sqrt (lit 0) *ᶠ Scalar.cos (lit 2 *ᶠ PI *ᶠ lit 0))
    (Scalar.sqrt (lit 1 -ᶠ lit 0) *ᶠ Scalar.sin (lit 2 *ᶠ PI *ᶠ lit 0))
    (Scalar.sqrt (lit 1 -ᶠ lit 0) *ᶠ Scalar.cos (lit 2 *ᶠ PI *ᶠ lit 0))
    (Scalar.sqrt (lit 0) *ᶠ Scalar.sin (lit 2 *ᶠ PI *ᶠ lit 0)), ?_, r0.mono ?_, r1.mono ?_, r2.mono ?_, r3.mono ?_⟩
  · unfold randomTarget
    simp only [Nat.div_eq_of_lt h1, Nat.div_eq_of_lt h2, Nat.div_eq_of_lt h3, Nat.cast_zero]
    rfl
  all_goals norm_num at hη ⊢; linarith

/-! ### The angle -/

theorem arccos_dist {x φ a : ℝ} (h0 : 0 ≤ φ) (h1 : φ ≤ 3 / 10) (hx : |x - Real.sin φ| ≤ a) (ha : a ≤ 1 / 1000) :
    |Real.arccos x - (Real.pi / 2 - φ)| ≤ 11 / 10 * a := by
  have hpi := Real.pi_gt_three
  have hs1 : Real.sin φ ≤ φ := Real.sin_le h0
  have hs0 : 0 ≤ Real.sin φ := Real.sin_nonneg_of_nonneg_of_le_pi h0 (by linarith)
  obtain ⟨x1, x2⟩ := abs_le.mp hx
  have hb : 33 / 100 < Real.sin (35 / 100) := by
    have := Real.sin_gt_sub_cube (x := 35 / 100) (by norm_num)
    norm_num at this ⊢
    linarith
  obtain ⟨u, hu⟩ : ∃ u, u = Real.arcsin x := ⟨_, rfl⟩
  have hsu : Real.sin u = x := by rw [hu, Real.sin_arcsin (by linarith) (by linarith)]
  have u1 : u ≤ 35 / 100 := by
    rw [hu, Real.arcsin_le_iff_le_sin ⟨by linarith, by linarith⟩ ⟨by linarith, by linarith⟩]
    linarith
  have u2 : -(35 / 100) ≤ u := by
    rw [hu, Real.le_arcsin_iff_sin_le ⟨by linarith, by linarith⟩ ⟨by linarith, by linarith⟩, Real.sin_neg]
    linarith
  have e : Real.arccos x - (Real.pi / 2 - φ) = -(u - φ) := by rw [Real.arccos, hu]; ring
  rw [e, abs_neg]
  have hd : Real.sin u - Real.sin φ = 2 * Real.sin ((u - φ) / 2) * Real.cos ((u + φ) / 2) := Real.sin_sub_sin u φ
  have hc : 94 / 100 ≤ Real.cos ((u + φ) / 2) := by
    have := Real.one_sub_sq_div_two_le_cos (x := (u + φ) / 2)
    have h : ((u + φ) / 2) ^ 2 ≤ (33 / 100) ^ 2 := by
      rw [sq_le_sq, abs_le]
      rw [abs_of_pos (by norm_num : (0 : ℝ) < 33 / 100)]
      constructor <;> linarith
    norm_num at h this ⊢
    linarith
  have hsin : ∀ t : ℝ, |t| ≤ 33 / 100 → 97 / 100 * |t| ≤ |Real.sin t| := by
    have pos : ∀ t : ℝ, 0 ≤ t → t ≤ 33 / 100 → 97 / 100 * t ≤ Real.sin t := by
      intro t t0 t1
      rcases t0.lt_or_eq with h | h
      · have := Real.sin_gt_sub_cube h
        have k : t ^ 3 ≤ (33 / 100) ^ 2 * t := by
          rw [pow_succ]
          exact mul_le_mul_of_nonneg_right (pow_le_pow_left₀ t0 t1 2) t0
        norm_num at k
        linarith
      · rw [← h]; simp
    intro t ht
    rcases le_total 0 t with h | h
    · rw [abs_of_nonneg h] at ht ⊢
      exact (pos t h ht).trans (le_abs_self _)
    · rw [abs_of_nonpos h] at ht ⊢
      have := pos (-t) (by linarith) ht
      rw [Real.sin_neg] at this
      exact this.trans (neg_le_abs _)
  have hh := hsin ((u - φ) / 2) (by rw [abs_le]; constructor <;> linarith)
  have h3 : |Real.sin u - Real.sin φ| ≤ a := by rw [hsu]; exact hx
  rw [hd, abs_mul, abs_mul, abs_of_pos (by norm_num : (0 : ℝ) < 2), abs_of_pos (by linarith : 0 < Real.cos ((u + φ) / 2))] at h3
  rw [abs_div, abs_of_pos (by norm_num : (0 : ℝ) < 2)] at hh
  have h4 : 94 / 100 * (2 * (97 / 100 * (|u - φ| / 2))) ≤ 2 * |Real.sin ((u - φ) / 2)| * Real.cos ((u + φ) / 2) := by
    rw [mul_comm (2 * |Real.sin ((u - φ) / 2)|)]
    exact mul_le_mul hc (by linarith) (by positivity) (by linarith)
  have : 0 ≤ |u - φ| := abs_nonneg _
  linarith

/-- The step, `PI / 64`. -/
theorem step_apx [T : Trig F] [L : Literals F] : Apx ((PI : F) /ᶠ lit 64) maxStep (1 / 10 ^ 8) := by
  have hη := rη_le
  have hp := TempDsp.pi_apx (F := F)
  change Apx (PI : F) Real.pi (188 / 10 ^ 9) at hp
  have h64 : Apx (lit 64 : F) 64 0 := by
    have := TempDsp.lit_nat_apx (F := F) 64 (by norm_num)
    push_cast at this
    exact this
  have hpi : |Real.pi / 64| ≤ 5 / 100 := by
    have := Real.pi_lt_d2
    norm_num at this
    rw [abs_of_pos (by positivity)]
    linarith
  have := hp.div h64 (m := 64) (c := 5 / 100) (E := 3 / 10 ^ 9) le_rfl (by norm_num) hpi (by norm_num) (by norm_num)
  refine ⟨this.1, (dist_trans this.2 (show |Real.pi / 64 - maxStep| ≤ 1 / 10 ^ 14 from ?_)).trans
    (by norm_num at hη ⊢; linarith)⟩
  have a := Real.pi_gt_d20
  have b := Real.pi_lt_d20
  unfold maxStep
  rw [abs_le]
  constructor <;> norm_num at a b ⊢ <;> linarith

theorem maxStep_bounds : 49 / 1000 ≤ maxStep ∧ maxStep ≤ 491 / 10000 := by unfold maxStep; norm_num

/-! ### One iteration -/

/-- Four numbers near an attitude about `y`. -/
structure About (f : Nat → F) (φ e : ℝ) : Prop where
  w : Apx (f 0) (Real.cos φ) e
  x : Apx (f 1) 0 e
  y : Apx (f 2) (Real.sin φ) e
  z : Apx (f 3) 0 e

/-- Four numbers near the half turn about `y`. -/
structure Turned (t : Nat → F) : Prop where
  w : Apx (t 0) 0 (1 / 10 ^ 20)
  x : Apx (t 1) 0 (45 / 10 ^ 8)
  y : Apx (t 2) 1 (45 / 10 ^ 8)
  z : Apx (t 3) 0 (1 / 10 ^ 20)

variable {φ e : ℝ} {f t : Nat → F}

theorem prod_dist {x y X Y a b A B : ℝ} (hx : |x - X| ≤ a) (hy : |y - Y| ≤ b) (hA : |X| ≤ A) (hB : |Y| ≤ B) :
    |x * y - X * Y| ≤ A * b + a * (B + b) := by
  have ha : 0 ≤ a := (abs_nonneg _).trans hx
  have hb : 0 ≤ b := (abs_nonneg _).trans hy
  have hA0 : 0 ≤ A := (abs_nonneg _).trans hA
  rw [show x * y - X * Y = X * (y - Y) + (x - X) * y by ring]
  refine (abs_add_le _ _).trans ?_
  rw [abs_mul, abs_mul]
  have h1 : |y| ≤ B + b := le_of_dist hB hy
  gcongr

theorem sin_small (h0 : 0 ≤ φ) (h1 : φ ≤ 3 / 10) : |Real.sin φ| ≤ 3 / 10 := by
  rw [abs_of_nonneg (Real.sin_nonneg_of_nonneg_of_le_pi h0 (by linarith [Real.pi_gt_three]))]
  exact (Real.sin_le h0).trans h1

theorem dot4_apx {v w : Vec F} {f g : Nat → F} (hv : VecIs v 4 f) (hw : VecIs w 4 g)
    (ff : ∀ i, i < 4 → Finite (f i)) (fg : ∀ i, i < 4 → Finite (g i)) {p : Nat → ℝ} {s a : ℝ}
    (hp : ∀ i, i < 4 → ⟪f i⟫ * ⟪g i⟫ = p i) (h1 : |p 0| + |p 1| + |p 2| + |p 3| ≤ 32 / 100)
    (h2 : |p 0 + p 1 + p 2 + p 3 - s| ≤ a) : ∃ D, v.dotProduct w = .ok D ∧ Apx D s (a + 23 / 10 ^ 8) := by
  have es : ∑ i ∈ range 4, |⟪f i⟫ * ⟪g i⟫| = |p 0| + |p 1| + |p 2| + |p 3| := by
    simp only [sum_range_succ, sum_range_zero, zero_add]
    rw [hp 0 (by omega), hp 1 (by omega), hp 2 (by omega), hp 3 (by omega)]
  have es' : ∑ i ∈ range 4, ⟪f i⟫ * ⟪g i⟫ = p 0 + p 1 + p 2 + p 3 := by
    simp only [sum_range_succ, sum_range_zero, zero_add]
    rw [hp 0 (by omega), hp 1 (by omega), hp 2 (by omega), hp 3 (by omega)]
  obtain ⟨D, eD, fD, hD⟩ := C76_dot hv hw ff fg (by rw [es]; norm_num; linarith)
  rw [es, es'] at hD
  refine ⟨D, eD, fD, (dist_trans hD h2).trans ?_⟩
  have : 3 * ((4 : ℕ) : ℝ) / 2 ^ 24 * (|p 0| + |p 1| + |p 2| + |p 3|) ≤ 3 * 4 / 2 ^ 24 * (32 / 100) := by
    push_cast
    gcongr
  norm_num at this ⊢
  linarith

theorem fin_of_four {f : Nat → F} (h0 : Finite (f 0)) (h1 : Finite (f 1)) (h2 : Finite (f 2)) (h3 : Finite (f 3)) :
    ∀ i, i < 4 → Finite (f i) := forall_lt_four.mpr ⟨h0, h1, h2, h3⟩

/-- Both scalar products that are computed. -/
theorem dots {v w : Vec F} (hv : VecIs v 4 f) (hw : VecIs w 4 t) (hf : About f φ e) (ht : Turned t) (h0 : 0 ≤ φ)
    (h1 : φ ≤ 3 / 10) (he : e ≤ 1 / 2000) :
    ∃ D D', v.dotProduct w = .ok D ∧ w.dotProduct v = .ok D' ∧ Apx D (Real.sin φ) (1001 / 1000 * e + 4 / 10 ^ 7) ∧
      Apx D' (Real.sin φ) (1001 / 1000 * e + 4 / 10 ^ 7) := by
  have e0 : 0 ≤ e := (abs_nonneg _).trans hf.w.2
  have k0 := prod_dist hf.w.2 ht.w.2 (Real.abs_cos_le_one _) (B := 0) (by norm_num)
  have k1 := prod_dist hf.x.2 ht.x.2 (A := 0) (B := 0) (by norm_num) (by norm_num)
  have k2 := prod_dist hf.y.2 ht.y.2 (sin_small h0 h1) (B := 1) (by norm_num)
  have k3 := prod_dist hf.z.2 ht.z.2 (A := 0) (B := 0) (by norm_num) (by norm_num)
  rw [mul_zero, sub_zero] at k0 k1 k3
  rw [mul_one] at k2
  have b2 := le_of_dist (sin_small h0 h1) k2
  have ff := fin_of_four hf.w.1 hf.x.1 hf.y.1 hf.z.1
  have ft := fin_of_four ht.w.1 ht.x.1 ht.y.1 ht.z.1
  have hs : |⟪f 0⟫ * ⟪t 0⟫| + |⟪f 1⟫ * ⟪t 1⟫| + |⟪f 2⟫ * ⟪t 2⟫| + |⟪f 3⟫ * ⟪t 3⟫| ≤ 32 / 100 := by
    norm_num at k0 k1 k3 b2 he ⊢
    linarith
  have hd : |⟪f 0⟫ * ⟪t 0⟫ + ⟪f 1⟫ * ⟪t 1⟫ + ⟪f 2⟫ * ⟪t 2⟫ + ⟪f 3⟫ * ⟪t 3⟫ - Real.sin φ| ≤
      1001 / 1000 * e + 14 / 10 ^ 8 := by
    rw [show ⟪f 0⟫ * ⟪t 0⟫ + ⟪f 1⟫ * ⟪t 1⟫ + ⟪f 2⟫ * ⟪t 2⟫ + ⟪f 3⟫ * ⟪t 3⟫ - Real.sin φ =
      ⟪f 0⟫ * ⟪t 0⟫ + ⟪f 1⟫ * ⟪t 1⟫ + (⟪f 2⟫ * ⟪t 2⟫ - Real.sin φ) + ⟪f 3⟫ * ⟪t 3⟫ by ring]
    refine ((abs_add_le _ _).trans (add_le_add ((abs_add_le _ _).trans (add_le_add ((abs_add_le _ _).trans
      (add_le_add k0 k1)) k2)) k3)).trans ?_
    norm_num at he ⊢
    linarith
  obtain ⟨D, eD, hD⟩ := dot4_apx hv hw ff ft (p := fun i => ⟪f i⟫ * ⟪t i⟫) (fun _ _ => rfl) hs hd
  obtain ⟨D', eD', hD'⟩ := dot4_apx hw hv ft ff (p := fun i => ⟪f i⟫ * ⟪t i⟫) (fun _ _ => mul_comm _ _) hs hd
  exact ⟨D, D', eD, eD', hD.mono (by norm_num; linarith), hD'.mono (by norm_num; linarith)⟩

theorem cos_big (h0 : 0 ≤ φ) (h1 : φ ≤ 3 / 10) : 955 / 1000 ≤ Real.cos φ := by
  have := Real.one_sub_sq_div_two_le_cos (x := φ)
  nlinarith

/-- The weights of the interpolation. -/
theorem slerp_weights [T : Trig F] [C : Acos F] [L : Literals F] {D D' : F} {a b : ℝ} (h0 : 0 ≤ φ) (h1 : φ ≤ 3 / 10)
    (hD : Apx D (Real.sin φ) a) (hD' : Apx D' (Real.sin φ) a) (ha : a ≤ 9 / 10000)
    (hb : b = 11 / 10 * a + 48 / 10 ^ 8) :
    (Scalar.abs (Scalar.acos D) >ᶠ (PI /ᶠ lit 64 : F)) = true ∧
    ∃ α : F, α = (PI /ᶠ lit 64 : F) /ᶠ Scalar.abs (Scalar.acos D) ∧ Finite α ∧ 0 ≤ ⟪α⟫ ∧ ⟪α⟫ ≤ 1 ∧
      Apx (Scalar.sin ((lit 1 -ᶠ α) *ᶠ Scalar.acos D') /ᶠ Scalar.sin (Scalar.acos D'))
        (Real.cos (φ + maxStep) / Real.cos φ) (217 / 100 * b + 93 / 10 ^ 8) ∧
      Apx (Scalar.sin (α *ᶠ Scalar.acos D') /ᶠ Scalar.sin (Scalar.acos D'))
        (Real.sin maxStep / Real.cos φ) (157 / 1000 * b + 40 / 10 ^ 8) := by
  have hη := rη_le
  have a0 : 0 ≤ a := (abs_nonneg _).trans hD.2
  have b0 : 0 ≤ b := by rw [hb]; positivity
  have b1 : b ≤ 1 / 1000 := by rw [hb]; norm_num; linarith
  have p1 := Real.pi_gt_d6
  have p2 := Real.pi_lt_d6
  obtain ⟨m1, m2⟩ := maxStep_bounds
  have ang : ∀ {d : F}, Apx d (Real.sin φ) a → Apx (Scalar.acos d) (Real.pi / 2 - φ) b := by
    intro d hd
    have hd1 : |⟪d⟫| ≤ 1 := (le_of_dist (sin_small h0 h1) hd.2).trans (by linarith)
    obtain ⟨g1, g2⟩ := C.acos_near hd.1 hd1
    refine ⟨g1, (dist_trans g2 (arccos_dist h0 h1 hd.2 (by linarith))).trans ?_⟩
    rw [hb]
    norm_num
    linarith
  have hθ := ang hD
  have hθ' := ang hD'
  obtain ⟨θ, eθ⟩ : ∃ θ, θ = Real.pi / 2 - φ := ⟨_, rfl⟩
  rw [← eθ] at hθ hθ'
  have θ1 : 127 / 100 ≤ θ := by rw [eθ]; linarith
  have θ2 : θ ≤ 158 / 100 := by rw [eθ]; linarith
  have hat : Apx (Scalar.abs (Scalar.acos D)) θ b := by
    refine ⟨R.abs_finite hθ.1, ?_⟩
    have := abs_abs_sub_abs_le ⟪Scalar.acos D⟫ θ
    rw [abs_of_pos (by linarith : 0 < θ)] at this
    rw [R.abs_val hθ.1]
    exact this.trans hθ.2
  have hm := step_apx (F := F)
  have hq1 : maxStep / θ ≤ 4 / 100 := by rw [div_le_iff₀ (by linarith)]; linarith
  have hq0 : 3 / 100 ≤ maxStep / θ := by rw [le_div_iff₀ (by linarith)]; linarith
  have hα := hm.div hat (m := 127 / 100) (c := 4 / 100) (E := 34 / 1000 * b + 2 / 10 ^ 8) θ1 (by linarith)
    (by rw [abs_of_pos (by linarith)]; exact hq1) (by norm_num; nlinarith) (by norm_num; linarith)
  have hα := hα.mono (e' := 35 / 1000 * b + 3 / 10 ^ 8) (by norm_num at hη ⊢; linarith)
  obtain ⟨α, eα⟩ : ∃ α, α = (PI /ᶠ lit 64 : F) /ᶠ Scalar.abs (Scalar.acos D) := ⟨_, rfl⟩
  rw [← eα] at hα
  obtain ⟨α1, α2⟩ := abs_le.mp hα.2
  refine ⟨?_, α, eα, hα.1, by norm_num at α1; linarith, by norm_num at α2; linarith, ?_⟩
  · rw [R.lt_val hm.1 hat.1]
    have := (abs_le.mp hat.2).1
    have := (abs_le.mp hm.2).2
    norm_num at *
    linarith
  obtain ⟨x, ex⟩ : ∃ x, x = maxStep / θ := ⟨_, rfl⟩
  have exθ : x * θ = maxStep := by rw [ex]; field_simp
  rw [← ex] at hα hq1 hq0
  have hα1 := (Apx.one (F := F)).sub hα (B := 1) (by rw [abs_le]; constructor <;> linarith) (by norm_num; linarith)
  have hα1 := hα1.mono (e' := 36 / 1000 * b + 1 / 10 ^ 7) (by norm_num at hη ⊢; linarith)
  have hθa : |θ| ≤ 158 / 100 := by rw [abs_of_pos (by linarith)]; exact θ2
  have z1 := mul_lin hα1 hθ' (A := 1) (B := 158 / 100) (β := 1 / 1000) (M := 1057 / 1000 * b + 32 / 10 ^ 8)
    (by rw [abs_le]; constructor <;> linarith) hθa b1 (by norm_num; linarith) (by norm_num) (by norm_num)
    (by norm_num; linarith) (by norm_num)
  have z2 := mul_lin hα hθ' (A := 4 / 100) (B := 158 / 100) (β := 1 / 1000) (M := 96 / 1000 * b + 115 / 10 ^ 9)
    (by rw [abs_of_pos (by linarith)]; exact hq1) hθa b1 (by norm_num; linarith) (by norm_num) (by norm_num)
    (by norm_num; linarith) (by norm_num)
  have s1 := sin_lin z1 (M := 1057 / 1000 * b + 57 / 10 ^ 8) (by norm_num at hη ⊢; linarith)
  have s2 := sin_lin z2 (M := 96 / 1000 * b + 36 / 10 ^ 8) (by norm_num at hη ⊢; linarith)
  have s3 := sin_lin hθ' (M := b + 24 / 10 ^ 8) (by norm_num)
  have e1 : Real.sin ((1 - x) * θ) = Real.cos (φ + maxStep) := by
    rw [show (1 - x) * θ = Real.pi / 2 - (φ + maxStep) by rw [sub_mul, exθ, eθ]; ring, Real.sin_pi_div_two_sub]
  have e3 : Real.sin θ = Real.cos φ := by rw [eθ, Real.sin_pi_div_two_sub]
  rw [e1] at s1
  rw [exθ] at s2
  rw [e3] at s3
  have hc := cos_big h0 h1
  have hs : Real.sin maxStep ≤ 491 / 10000 := (Real.sin_le (by linarith)).trans m2
  have hs0 : 0 ≤ Real.sin maxStep := Real.sin_nonneg_of_nonneg_of_le_pi (by linarith) (by linarith)
  have hcc : Real.cos (φ + maxStep) ≤ Real.cos φ :=
    Real.cos_le_cos_of_nonneg_of_le_pi h0 (by linarith) (by linarith)
  have hc0 : 0 ≤ Real.cos (φ + maxStep) := Real.cos_nonneg_of_mem_Icc ⟨by linarith, by linarith⟩
  have hcp : 0 < Real.cos φ := by linarith
  constructor
  · refine (s1.div s3 (m := 955 / 1000) (c := 1) (E := 216 / 100 * b + 86 / 10 ^ 8) hc (by norm_num; linarith) ?_ ?_
      (by norm_num; linarith)).mono (by norm_num at hη ⊢; linarith)
    · rw [abs_of_nonneg (div_nonneg hc0 hcp.le), div_le_one hcp]
      exact hcc
    · norm_num
      nlinarith
  · refine (s2.div s3 (m := 955 / 1000) (c := 52 / 1000) (E := 156 / 1000 * b + 393 / 10 ^ 9) hc (by norm_num; linarith)
      ?_ ?_ (by norm_num; linarith)).mono (by norm_num at hη ⊢; linarith)
    · rw [abs_of_nonneg (div_nonneg hs0 hcp.le), div_le_iff₀ hcp]
      linarith
    · norm_num
      nlinarith

theorem ratio_le (h0 : 0 ≤ φ) (h1 : φ ≤ 3 / 10) : |Real.cos (φ + maxStep) / Real.cos φ| ≤ 1 ∧
    |Real.sin maxStep / Real.cos φ| ≤ 52 / 1000 := by
  obtain ⟨m1, m2⟩ := maxStep_bounds
  have hpi := Real.pi_gt_three
  have hc := cos_big h0 h1
  have hs : Real.sin maxStep ≤ 491 / 10000 := (Real.sin_le (by linarith)).trans m2
  have hs0 : 0 ≤ Real.sin maxStep := Real.sin_nonneg_of_nonneg_of_le_pi (by linarith) (by linarith)
  have hcc : Real.cos (φ + maxStep) ≤ Real.cos φ :=
    Real.cos_le_cos_of_nonneg_of_le_pi h0 (by linarith) (by linarith)
  have hc0 : 0 ≤ Real.cos (φ + maxStep) := Real.cos_nonneg_of_mem_Icc ⟨by linarith, by linarith⟩
  have hcp : 0 < Real.cos φ := by linarith
  constructor
  · rw [abs_of_nonneg (div_nonneg hc0 hcp.le), div_le_one hcp]
    exact hcc
  · rw [abs_of_nonneg (div_nonneg hs0 hcp.le), div_le_iff₀ hcp]
    linarith

/-- One component of the interpolation. -/
theorem component {c d x y : F} {q1 q2 X Y p r τ A B : ℝ} (hc : Apx c q1 p) (hd : Apx d q2 r) (k1 : |q1| ≤ 1)
    (k2 : |q2| ≤ 52 / 1000) (hx : Apx x X e) (hy : Apx y Y τ) (hA : |X| ≤ A) (hB : |Y| ≤ B) (hA1 : A ≤ 1) (hB1 : B ≤ 1)
    (hp : p ≤ 2 / 1000) (hr : r ≤ 2 / 1000) (he : e ≤ 1 / 2000) (hτ : τ ≤ 45 / 10 ^ 8) {G : ℝ}
    (hs : |X * q1 + Y * q2| ≤ 2)
    (hG : A * p + 1002 / 1000 * e + B * r + 4 / 10 ^ 7 ≤ G) :
    Finite (x *ᶠ c) ∧ Finite (y *ᶠ d) ∧ Apx ((x *ᶠ c) +ᶠ (y *ᶠ d)) (X * q1 + Y * q2) G := by
  have hη := rη_le
  have A0 : 0 ≤ A := (abs_nonneg _).trans hA
  have B0 : 0 ≤ B := (abs_nonneg _).trans hB
  have e0 : 0 ≤ e := (abs_nonneg _).trans hx.2
  have p0 : 0 ≤ p := (abs_nonneg _).trans hc.2
  have r0 : 0 ≤ r := (abs_nonneg _).trans hd.2
  have τ0 : 0 ≤ τ := (abs_nonneg _).trans hy.2
  have u1 : A * p ≤ 1 * p := mul_le_mul_of_nonneg_right hA1 p0
  have u2 : B * r ≤ 1 * r := mul_le_mul_of_nonneg_right hB1 r0
  have z1 := mul_lin hx hc (B := 1) (β := 2 / 1000) (M := A * p + 1002 / 1000 * e + 12 / 10 ^ 8) hA k1 hp
    (by norm_num; linarith) (by linarith) (by norm_num) (by linarith) (by norm_num)
  have z2 := mul_lin hy hd (B := 52 / 1000) (β := 2 / 1000) (M := B * r + 9 / 10 ^ 8) hB k2 hr
    (by norm_num at hτ ⊢; linarith) (by linarith) (by norm_num) (by norm_num at hτ ⊢; linarith) (by norm_num)
  have z1 := z1.mono (e' := A * p + 1002 / 1000 * e + 13 / 10 ^ 8) (by norm_num at hη ⊢; linarith)
  have z2 := z2.mono (e' := B * r + 10 / 10 ^ 8) (by norm_num at hη ⊢; linarith)
  refine ⟨z1.1, z2.1, (add_lin z1 z2 (B := 2) (M := A * p + 1002 / 1000 * e + B * r + 37 / 10 ^ 8) hs
    (by norm_num; linarith) (by norm_num) (by norm_num; linarith) (by norm_num; linarith)).mono
    (by norm_num at hη hG ⊢; linarith)⟩

/-- One iteration. -/
theorem step32 [T : Trig F] [C : Acos F] [L : Literals F] {d : Nat → Nat} (hd : ∀ k, d k < 2 ^ 64 - 1) {n number : Nat}
    (hn : n < number) {A : Nat → Nat → F} {st : RandState F} (hP : VecIs st.previous 4 f)
    (hA : MatIs st.attitudes 4 number A) (hf : About f φ e) (h0 : 0 ≤ φ) (h1 : φ ≤ 3 / 10) (he : e ≤ 1 / 2000) :
    ∃ st' g, randomStep d n st = .ok st' ∧ VecIs st'.previous 4 g ∧ About g (φ + maxStep) (7 / 2 * e + 4 / 10 ^ 6) ∧
      MatIs st'.attitudes 4 number fun i j => if j = n then g i else A i j := by
  have e0 : 0 ≤ e := (abs_nonneg _).trans hf.w.2
  obtain ⟨t, et, t0, t1, t2, t3⟩ := target32 (F := F) (hd (3 * n)) (hd (3 * n + 1)) (hd (3 * n + 2))
  have ht : Turned t := ⟨t0, t1, t2, t3⟩
  have hz := Vec.zeros_is (F := F) (n := 4) (by omega) (by omega)
  obtain ⟨v, ev, hv⟩ := Quat.fillq_ok hz t0.1 t1.1 t2.1 t3.1
  have hv : VecIs v 4 t := hv.congr (forall_lt_four.mpr ⟨rfl, rfl, rfl, rfl⟩)
  obtain ⟨D', D, eD', eD, hD', hD⟩ := dots hP hv hf ht h0 h1 he
  obtain ⟨b, hb⟩ : ∃ b, b = 11 / 10 * (1001 / 1000 * e + 4 / 10 ^ 7) + 48 / 10 ^ 8 := ⟨_, rfl⟩
  obtain ⟨hgt, α, eα, fα, α0, α1, w1, w2⟩ := slerp_weights h0 h1 hD hD' (by norm_num; linarith) hb
  obtain ⟨k1, k2⟩ := ratio_le h0 h1
  have ff := fin_of_four hf.w.1 hf.x.1 hf.y.1 hf.z.1
  have ft := fin_of_four t0.1 t1.1 t2.1 t3.1
  have hcp : 0 < Real.cos φ := by linarith [cos_big h0 h1]
  have hsc := Real.sin_sq_add_cos_sq φ
  have ew : Real.cos φ * (Real.cos (φ + maxStep) / Real.cos φ) + 0 * (Real.sin maxStep / Real.cos φ) =
      Real.cos (φ + maxStep) := by field_simp; ring
  have ey : Real.sin φ * (Real.cos (φ + maxStep) / Real.cos φ) + 1 * (Real.sin maxStep / Real.cos φ) =
      Real.sin (φ + maxStep) := by
    rw [mul_div_assoc', one_mul, ← add_div, div_eq_iff hcp.ne', Real.sin_add, Real.cos_add]
    linear_combination - Real.sin maxStep * hsc
  have ex : 0 * (Real.cos (φ + maxStep) / Real.cos φ) + 0 * (Real.sin maxStep / Real.cos φ) = 0 := by ring
  have hpb : 217 / 100 * b + 93 / 10 ^ 8 ≤ 2 / 1000 := by rw [hb]; norm_num; linarith
  have hrb : 157 / 1000 * b + 40 / 10 ^ 8 ≤ 2 / 1000 := by rw [hb]; norm_num; linarith
  have hcle := Real.abs_cos_le_one (φ + maxStep)
  have hsle := Real.abs_sin_le_one (φ + maxStep)
  obtain ⟨a1, a2, a3⟩ := component w1 w2 k1 k2 hf.w t0 (Real.abs_cos_le_one _) (B := 0) (by norm_num) le_rfl
    (by norm_num) hpb hrb he (by norm_num) (G := 7 / 2 * e + 4 / 10 ^ 6) (by rw [ew]; linarith)
    (by rw [hb]; norm_num; linarith)
  obtain ⟨b1, b2, b3⟩ := component w1 w2 k1 k2 hf.x t1 (A := 0) (B := 0) (by norm_num) (by norm_num) (by norm_num)
    (by norm_num) hpb hrb he (by norm_num) (G := 7 / 2 * e + 4 / 10 ^ 6) (by rw [ex]; norm_num)
    (by norm_num; linarith)
  obtain ⟨c1, c2, c3⟩ := component w1 w2 k1 k2 hf.y t2 (B := 1) (sin_small h0 h1) (by norm_num) (by norm_num)
    (by norm_num) hpb hrb he (by norm_num) (G := 7 / 2 * e + 4 / 10 ^ 6) (by rw [ey]; linarith)
    (by rw [hb]; norm_num; linarith)
  obtain ⟨d1, d2, d3⟩ := component w1 w2 k1 k2 hf.z t3 (A := 0) (B := 0) (by norm_num) (by norm_num) (by norm_num)
    (by norm_num) hpb hrb he (by norm_num) (G := 7 / 2 * e + 4 / 10 ^ 6) (by rw [ex]; norm_num)
    (by norm_num; linarith)
  rw [ew] at a3
  rw [ex] at b3 d3
  rw [ey] at c3
  obtain ⟨s', es, hs⟩ := interp_ok
    (c := Scalar.sin ((lit 1 -ᶠ α) *ᶠ Scalar.acos D') /ᶠ Scalar.sin (Scalar.acos D'))
    (d := Scalar.sin (α *ᶠ Scalar.acos D') /ᶠ Scalar.sin (Scalar.acos D')) hz hP hv ff ft
    (forall_lt_four.mpr ⟨a1, b1, c1, d1⟩) (forall_lt_four.mpr ⟨a2, b2, c2, d2⟩)
    (forall_lt_four.mpr ⟨a3.1, b3.1, c3.1, d3.1⟩)
  have eslerp : Vec.slerp st.previous v α (Vec.zeros 4) = (.ok (), s') := by
    unfold Vec.slerp
    simp only [alpha_ok fα α0 α1, Bool.not_true, Bool.false_eq_true, if_false, Op.get_bind,
      hz.sameSize hP, hz.sameSize hv, hz.rows, Op.liftOk_bind, eD']
    exact es
  obtain ⟨g, eg⟩ : ∃ g : Nat → F, g = fun i =>
    (f i *ᶠ (Scalar.sin ((lit 1 -ᶠ α) *ᶠ Scalar.acos D') /ᶠ Scalar.sin (Scalar.acos D'))) +ᶠ
      (t i *ᶠ (Scalar.sin (α *ᶠ Scalar.acos D') /ᶠ Scalar.sin (Scalar.acos D'))) := ⟨_, rfl⟩
  have hg : VecIs s' 4 g := by rw [eg]; exact hs
  have hgA : About g (φ + maxStep) (7 / 2 * e + 4 / 10 ^ 6) := by
    rw [eg]
    exact ⟨a3, b3, c3, d3⟩
  have fg := fin_of_four hgA.w.1 hgA.x.1 hgA.y.1 hgA.z.1
  obtain ⟨p', ep, hp⟩ := Vec.exec_of_stores (Vec.copyFrom_stores hP hg) hP fg
  obtain ⟨m1, e1, l1⟩ := hA.exec_set (i := 0) (j := n) (by omega) hn hgA.w.1
  obtain ⟨m2, e2, l2⟩ := l1.exec_set (i := 1) (j := n) (by omega) hn hgA.x.1
  obtain ⟨m3, e3, l3⟩ := l2.exec_set (i := 2) (j := n) (by omega) hn hgA.y.1
  obtain ⟨m4, e4, l4⟩ := l3.exec_set (i := 3) (j := n) (by omega) hn hgA.z.1
  refine ⟨⟨m4, p'⟩, g, ?_, hp, hgA, l4.congr fun i j hi _ => ?_⟩
  · have q : VecIs s' 4 (seq4 (g 0) (g 1) (g 2) (g 3)) := hg.congr (forall_lt_four.mpr ⟨rfl, rfl, rfl, rfl⟩)
    rw [eα] at eslerp
    unfold randomStep
    simp only [et, Vec.init_new (F := F) (n := 4) (by omega) (by omega), Res.ok_bind, exec_ok ev,
      eD, hgt, if_true, exec_ok eslerp, Quat.getQw_eq q, Quat.getQx_eq q, Quat.getQy_eq q, Quat.getQz_eq q,
      ep, e1, e2, e3, e4]
  · by_cases hj : j = n
    · subst hj
      have : i = 0 ∨ i = 1 ∨ i = 2 ∨ i = 3 := by omega
      rcases this with rfl | rfl | rfl | rfl <;> simp
    · simp [hj]

/-! ### The claim -/

/-- C131: in binary32 the sequence is not random either: unless the source draws `u64::MAX`, one to four attitudes are
produced and attitude `n` is the rotation about `y` by `(n + 1)·PI/32`, up to an error that grows by a factor of at most
three and a half per attitude and stays below 1/4000. -/
theorem C131_values [Trig F] [Acos F] [Literals F] {d : Nat → Nat} (hd : ∀ k, d k < 2 ^ 64 - 1) {number : Nat}
    (h1 : 1 ≤ number) (h4 : number ≤ 4) :
    ∃ (A : Mat F) (x : Nat → Nat → F), generateRandomAttitudes d number = .ok A ∧ MatIs A 4 number x ∧
      ∀ n, n < number → ∀ i, i < 4 → Finite (x i n) ∧
        |⟪x i n⟫ - seq4 (Real.cos ((n + 1) * maxStep)) 0 (Real.sin ((n + 1) * maxStep)) 0 i| ≤
          16 / 10 ^ 7 * ((7 / 2) ^ (n + 1) - 1) := by
  have hz := Vec.zeros_is (F := F) (n := 4) (by omega) (by omega)
  obtain ⟨p, ep, hp⟩ := Quat.fillq_ok hz R.one_finite R.zero_finite R.zero_finite R.zero_finite
  have ep : exec (Vec.zeros 4 : Vec F) Quat.fillIdentity = .ok p := exec_ok ep
  have hv : isValidColsNumber number = .ok () := by
    unfold isValidColsNumber N_MAX
    rw [if_neg (by omega), if_neg (by omega)]
  have key := foldRange_inv (randomStep (F := F) d)
    (fun n st => (∃ f, VecIs st.previous 4 f ∧ About f (n * maxStep) (16 / 10 ^ 7 * ((7 / 2) ^ n - 1))) ∧
      ∃ x : Nat → Nat → F, MatIs st.attitudes 4 number x ∧ ∀ j, j < n →
        About (fun i => x i j) ((j + 1) * maxStep) (16 / 10 ^ 7 * ((7 / 2) ^ (j + 1) - 1)))
    0 number (by omega) ⟨Mat.zeros 4 number, p⟩ ?_ ?_
  · obtain ⟨st, es, -, x, hx, hh⟩ := key
    refine ⟨st.attitudes, x, ?_, hx, fun n hn => ?_⟩
    · unfold generateRandomAttitudes
      simp only [hv, Res.ok_bind, Mat.init_new (F := F) (r := 4) (by omega) (by omega) h1 h4,
        Vec.init_new (F := F) (n := 4) (by omega) (by omega), ep, es]
    · obtain ⟨a, b, c, e⟩ := hh n hn
      exact forall_lt_four.mpr ⟨a, b, c, e⟩
  · refine ⟨⟨_, hp, ?_⟩, _, Mat.zeros_is (by omega) (by omega) h1 h4, fun j hj => by omega⟩
    have one := Apx.one (F := F)
    have zero := Apx.zero (F := F)
    refine ⟨?_, ?_, ?_, ?_⟩
    all_goals first | (convert one using 1 <;> first | (simp) | rfl) | (convert zero using 1 <;> first | (simp) | rfl)
  · rintro n st - hn ⟨⟨f, hf, ha⟩, x, hx, hh⟩
    have hn3 : n ≤ 3 := by omega
    have hm := maxStep_bounds
    have hn' : (n : ℝ) ≤ 3 := by exact_mod_cast hn3
    have b0 : (0 : ℝ) ≤ n * maxStep := by
      have := maxStep_pos
      positivity
    have b1 : (n : ℝ) * maxStep ≤ 3 / 10 := by nlinarith
    have b2 : (7 / 2 : ℝ) ^ n ≤ (7 / 2) ^ 3 := pow_le_pow_right₀ (by norm_num) hn3
    obtain ⟨st', g, es, hg, hA, hm'⟩ := step32 hd hn hf hx ha b0 b1 (by norm_num at b2 ⊢; linarith)
    have hA' : About g ((n + 1) * maxStep) (16 / 10 ^ 7 * ((7 / 2) ^ (n + 1) - 1)) := by
      convert hA using 1
      · ring
      · rw [pow_succ]
        ring
    refine ⟨st', es, ⟨g, hg, by push_cast; exact hA'⟩, _, hm', fun j hj => ?_⟩
    by_cases h : j = n
    · subst h
      simpa using hA'
    · simpa [h] using hh j (by omega)

/-- C131: the quaternions are of unit length up to that error. -/
theorem C131_unit [Trig F] [Acos F] [Literals F] {d : Nat → Nat} (hd : ∀ k, d k < 2 ^ 64 - 1) {number : Nat}
    (h1 : 1 ≤ number) (h4 : number ≤ 4) {A : Mat F} (hA : generateRandomAttitudes d number = .ok A) {n : Nat}
    (hn : n < number) :
    ∃ w x y z : F, A.getElement 0 n = .ok w ∧ A.getElement 1 n = .ok x ∧ A.getElement 2 n = .ok y ∧
      A.getElement 3 n = .ok z ∧ |⟪w⟫ ^ 2 + ⟪x⟫ ^ 2 + ⟪y⟫ ^ 2 + ⟪z⟫ ^ 2 - 1| ≤ 1 / 1000 := by
  obtain ⟨A', x, e, hx, hh⟩ := C131_values (F := F) hd h1 h4
  rw [hA] at e
  cases e
  refine ⟨_, _, _, _, hx.get 0 n (by omega) hn, hx.get 1 n (by omega) hn, hx.get 2 n (by omega) hn,
    hx.get 3 n (by omega) hn, ?_⟩
  have b2 : (7 / 2 : ℝ) ^ (n + 1) ≤ (7 / 2) ^ 4 := pow_le_pow_right₀ (by norm_num) (by omega)
  have hE : (16 : ℝ) / 10 ^ 7 * ((7 / 2) ^ (n + 1) - 1) ≤ 24 / 10 ^ 5 := by norm_num at b2 ⊢; linarith
  have g0 := (hh n hn 0 (by omega)).2.trans hE
  have g1 := (hh n hn 1 (by omega)).2.trans hE
  have g2 := (hh n hn 2 (by omega)).2.trans hE
  have g3 := (hh n hn 3 (by omega)).2.trans hE
  simp only [seq4] at g0 g1 g2 g3
  have hs := Real.sin_sq_add_cos_sq ((n + 1) * maxStep)
  have c1 := Real.abs_cos_le_one ((n + 1) * maxStep)
  have s1 := Real.abs_sin_le_one ((n + 1) * maxStep)
  generalize Real.cos ((n + 1) * maxStep) = c at *
  generalize Real.sin ((n + 1) * maxStep) = s at *
  have sq : ∀ {u v : ℝ}, |u - v| ≤ 24 / 10 ^ 5 → |u ^ 2 - v ^ 2| ≤ 24 / 10 ^ 5 * (2 * |v| + 24 / 10 ^ 5) := by
    intro u v h
    rw [show u ^ 2 - v ^ 2 = (u - v) * (2 * v + (u - v)) by ring, abs_mul]
    refine mul_le_mul h ((abs_add_le _ _).trans ?_) (abs_nonneg _) (by norm_num)
    rw [abs_mul, abs_of_pos (by norm_num : (0 : ℝ) < 2)]
    linarith
  have k0 := sq g0
  have k1 := sq g1
  have k2 := sq g2
  have k3 := sq g3
  rw [abs_zero] at k1 k3
  have hcs : |c| + |s| ≤ 3 / 2 := by
    have := abs_nonneg c
    have := abs_nonneg s
    have h : (|c| + |s|) ^ 2 ≤ 2 := by nlinarith [sq_abs c, sq_abs s, sq_nonneg (|c| - |s|)]
    nlinarith
  rw [show ⟪x 0 n⟫ ^ 2 + ⟪x 1 n⟫ ^ 2 + ⟪x 2 n⟫ ^ 2 + ⟪x 3 n⟫ ^ 2 - 1 = (⟪x 0 n⟫ ^ 2 - c ^ 2) +
    (⟪x 1 n⟫ ^ 2 - 0 ^ 2) + (⟪x 2 n⟫ ^ 2 - s ^ 2) + (⟪x 3 n⟫ ^ 2 - 0 ^ 2) by linear_combination hs]
  refine ((abs_add_le _ _).trans (add_le_add ((abs_add_le _ _).trans (add_le_add ((abs_add_le _ _).trans
    (add_le_add k0 k1)) k2)) k3)).trans ?_
  norm_num at *
  linarith

end Ahrs

/-! ### Cases -/

instance : Literals F32S where
  lit_near q hq := Literals.lit_near (F := F32) q hq
  lit_int n hn := Literals.lit_int (F := F32) n hn

namespace Ahrs

/-- A source that never draws `u64::MAX`, in binary32 with accurate elementary functions. -/
example : ∃ (A : Mat F32S) (x : F32S), generateRandomAttitudes (fun _ => 12345678901234567890) 4 = .ok A ∧
    A.getElement 0 3 = .ok x ∧ |⟪x⟫ - Real.cos (4 * maxStep)| ≤ 1 / 4000 := by
  obtain ⟨A, x, e, hx, hh⟩ := C131_values (F := F32S) (d := fun _ => 12345678901234567890) (fun _ => by norm_num)
    (show 1 ≤ 4 by omega) (by omega)
  refine ⟨A, x 0 3, e, hx.get 0 3 (by omega) (by omega), ?_⟩
  have := (hh 3 (by omega) 0 (by omega)).2
  simp only [seq4] at this
  norm_num at this ⊢
  linarith

end Ahrs
end Verif
