import Verif.Props.AhrsTest
import Verif.Props.AhrsTestRun
import Verif.Props.RoundedQuatInv
import Verif.Props.RoundedRandom
import Verif.Props.RoundedQuat

/-
C132: the simulation of the test of `open_ahrs/src/lib.rs` in binary32.
-/

set_option linter.unusedSectionVars false
set_option linter.unusedSimpArgs false

namespace Verif.AhrsTest
open Scalar Finset Quaternion

variable {F : Type} [Scalar F] [R : Rounded F]

/-! ### Errors of quaternions -/

/-- The quaternion of four real numbers. -/
noncomputable def ofSeq (G : Nat → ℝ) : Quaternion ℝ := mkQ (G 0) (G 1) (G 2) (G 3)

theorem ofSeq_norm_sq (G : Nat → ℝ) : ‖ofSeq G‖ ^ 2 = G 0 ^ 2 + G 1 ^ 2 + G 2 ^ 2 + G 3 ^ 2 := by
  unfold ofSeq
  rw [norm_mkQ, Real.sq_sqrt (by positivity)]

theorem qval_dist {f : Nat → F} {G : Nat → ℝ} {a b : ℝ} (ha : 0 ≤ a) (hb : 0 ≤ b)
    (h : ∀ i, i < 4 → |⟪f i⟫ - G i| ≤ a * |G i| + b) : ‖qval f - ofSeq G‖ ≤ a * ‖ofSeq G‖ + 2 * b := by
  obtain ⟨h0, h1, h2, h3⟩ := forall_lt_four.mp h
  have hN := ofSeq_norm_sq G
  have n0 := norm_nonneg (ofSeq G)
  generalize ‖ofSeq G‖ = N at *
  rw [quat_norm, Quaternion.normSq_def']
  refine Real.sqrt_le_iff.mpr ⟨by positivity, ?_⟩
  simp only [qval, ofSeq, mkQ_re, mkQ_imI, mkQ_imJ, mkQ_imK, Quaternion.re_sub, Quaternion.imI_sub, Quaternion.imJ_sub,
    Quaternion.imK_sub]
  have k : ∀ {x y : ℝ}, |x - y| ≤ a * |y| + b → (x - y) ^ 2 ≤ (a * |y| + b) ^ 2 := fun h =>
    sq_le_sq' (abs_le.mp h).1 (abs_le.mp h).2
  have k0 := k h0
  have k1 := k h1
  have k2 := k h2
  have k3 := k h3
  have hs : |G 0| + |G 1| + |G 2| + |G 3| ≤ 2 * N := by
    refine abs_le_of_sq_le_sq' ?_ (by positivity) |>.2
    have e : ∀ x : ℝ, x ^ 2 = |x| ^ 2 := fun x => (sq_abs x).symm
    rw [e (G 0), e (G 1), e (G 2), e (G 3)] at hN
    generalize |G 0| = a0, |G 1| = a1, |G 2| = a2, |G 3| = a3 at hN
    nlinarith [sq_nonneg (a0 - a1), sq_nonneg (a0 - a2), sq_nonneg (a0 - a3), sq_nonneg (a1 - a2),
      sq_nonneg (a1 - a3), sq_nonneg (a2 - a3)]
  have hab : 0 ≤ 2 * (a * b) := by positivity
  have := mul_le_mul_of_nonneg_left hs hab
  have e : (a * |G 0| + b) ^ 2 + (a * |G 1| + b) ^ 2 + (a * |G 2| + b) ^ 2 + (a * |G 3| + b) ^ 2 =
      a ^ 2 * N ^ 2 + 2 * (a * b) * (|G 0| + |G 1| + |G 2| + |G 3|) + 4 * b ^ 2 := by
    rw [hN, ← sq_abs (G 0), ← sq_abs (G 1), ← sq_abs (G 2), ← sq_abs (G 3)]
    ring
  have e2 : (a * N + 2 * b) ^ 2 = a ^ 2 * N ^ 2 + 2 * (a * b) * (2 * N) + 4 * b ^ 2 := by ring
  rw [e2]
  linarith

/-- The components of a quaternion are bounded by its norm. -/
theorem part_le (q : Quaternion ℝ) : ∀ i, i < 3 → |part q i| ≤ ‖q‖ := by
  have h : ‖q‖ = √(q.re ^ 2 + q.imI ^ 2 + q.imJ ^ 2 + q.imK ^ 2) := by rw [quat_norm, Quaternion.normSq_def']
  rw [h]
  refine forall_lt_three.mpr ⟨?_, ?_, ?_⟩ <;> refine Real.abs_le_sqrt ?_ <;> simp only [part, seq3] <;>
    nlinarith [sq_nonneg q.re, sq_nonneg q.imI, sq_nonneg q.imJ, sq_nonneg q.imK]

theorem part_sub (p q : Quaternion ℝ) : ∀ i, i < 3 → part (p - q) i = part p i - part q i :=
  forall_lt_three.mpr ⟨rfl, rfl, rfl⟩

theorem rη_val : rη = 1 / 2 ^ 150 := by unfold rη; ring

/-- The error of a product of two perturbed factors. -/
theorem product_bound {m d M D μ δ : ℝ} (hm : m ≤ M + μ) (hd : d ≤ D + δ) (hμ : μ ≤ M / 16777216 + 2 * rη)
    (hδ : δ ≤ 4 * D / 16777216 + 2 ^ 23 * rη) (m0 : 0 ≤ m) (d0 : 0 ≤ d) (M0 : 0 ≤ M) (D0 : 0 ≤ D) (μ0 : 0 ≤ μ)
    (hM : M ≤ 4) (hD : D ≤ 2 ^ 22) :
    24 / 2 ^ 24 * (m * d) + 24 / 2 ^ 150 + μ * d + M * δ ≤ 30 / 2 ^ 24 * (M * D) + 1 / 2 ^ 120 := by
  have hη := rη_val
  have η0 := rη_pos.le
  have a1 : M * rη ≤ 4 * rη := mul_le_mul_of_nonneg_right hM η0
  have a2 : D * rη ≤ 2 ^ 22 * rη := mul_le_mul_of_nonneg_right hD η0
  have a3 : rη * rη ≤ 1 * rη := mul_le_mul_of_nonneg_right (by rw [hη]; norm_num) η0
  have MD : 0 ≤ M * D := mul_nonneg M0 D0
  have b1 : m ≤ 10001 / 10000 * M + 2 * rη := by linarith
  have b2 : d ≤ 10001 / 10000 * D + 2 ^ 23 * rη := by linarith
  have c1 : m * d ≤ (10001 / 10000 * M + 2 * rη) * (10001 / 10000 * D + 2 ^ 23 * rη) := by gcongr
  have c2 : μ * d ≤ (M / 16777216 + 2 * rη) * (10001 / 10000 * D + 2 ^ 23 * rη) := by gcongr
  have c3 : M * δ ≤ M * (4 * D / 16777216 + 2 ^ 23 * rη) := by gcongr
  have e1 : (10001 / 10000 * M + 2 * rη) * (10001 / 10000 * D + 2 ^ 23 * rη) = (10001 / 10000) ^ 2 * (M * D) +
    10001 / 10000 * 2 ^ 23 * (M * rη) + 2 * (10001 / 10000) * (D * rη) + 2 ^ 24 * (rη * rη) := by ring
  have e2 : (M / 16777216 + 2 * rη) * (10001 / 10000 * D + 2 ^ 23 * rη) = 10001 / 10000 / 16777216 * (M * D) +
    2 ^ 23 / 16777216 * (M * rη) + 2 * (10001 / 10000) * (D * rη) + 2 ^ 24 * (rη * rη) := by ring
  have e3 : M * (4 * D / 16777216 + 2 ^ 23 * rη) = 4 / 16777216 * (M * D) + 2 ^ 23 * (M * rη) := by ring
  rw [e1] at c1
  rw [e2] at c2
  rw [e3] at c3
  have hη' : rη * 2 ^ 28 ≤ 1 / 2 ^ 121 := by rw [hη]; norm_num
  generalize M * rη = u1 at *
  generalize D * rη = u2 at *
  generalize rη * rη = u3 at *
  generalize M * D = u4 at *
  generalize m * d = u5 at *
  generalize μ * d = u6 at *
  generalize M * δ = u7 at *
  clear hη b1 b2 hm hd hμ hδ e1 e2 e3 hM hD
  norm_num at *
  linarith

/-! ### The pieces of one step -/

variable {u v w g : Vec F} {fq fp fd fg : Nat → F} {ts : F}

/-- The conjugate is exact. -/
theorem conj32 (hq : VecIs v 4 fq) (ff : ∀ i, i < 4 → Finite (fq i)) :
    ∃ c h, Quat.conjugateNew v = .ok c ∧ VecIs c 4 h ∧ (∀ i, i < 4 → Finite (h i)) ∧ qval h = star (qval fq) := by
  obtain ⟨f0, f1, f2, f3⟩ := forall_lt_four.mp ff
  obtain ⟨d, e1, hd⟩ := Vec.duplicate_ok hq ff
  have hd' : VecIs d 4 (seq4 (fq 0) (fq 1) (fq 2) (fq 3)) := hd.congr (forall_lt_four.mpr ⟨rfl, rfl, rfl, rfl⟩)
  obtain ⟨c, e2, hc⟩ := Quat.conjugate_stores hd' (R.neg_finite f1) (R.neg_finite f2) (R.neg_finite f3)
  refine ⟨c, _, ?_, hc, forall_lt_four.mpr ⟨f0, R.neg_finite f1, R.neg_finite f2, R.neg_finite f3⟩, ?_⟩
  · unfold Quat.conjugateNew
    rw [e1, Res.ok_bind]
    exact exec_ok e2
  · unfold qval
    simp only [seq4]
    rw [R.neg_val f1, R.neg_val f2, R.neg_val f3]
    apply Quaternion.ext <;> simp

/-- Multiplication of four components by a number. -/
theorem scale32 {n : Nat} (hq : VecIs v n fq) (ff : ∀ i, i < n → Finite (fq i)) {k : F} (fk : Finite k)
    (hb : ∀ i, i < n → |⟪fq i⟫ * ⟪k⟫| ≤ 2 ^ 127) :
    ∃ c h, exec v (Vec.mulByScalarInPlace k) = .ok c ∧ VecIs c n h ∧ ∀ i, i < n → Finite (h i) ∧
      |⟪h i⟫ - ⟪fq i⟫ * ⟪k⟫| ≤ |⟪fq i⟫ * ⟪k⟫| / 16777216 + rη := by
  have hf := fun i hi => R.mul_finite (ff i hi) fk (hb i hi)
  obtain ⟨c, e, hc⟩ := Vec.exec_of_stores (Vec.mulByScalarInPlace_stores (x := k) hq) hq hf
  exact ⟨c, _, e, hc, fun i hi => ⟨hf i hi, (R.mul_near (ff i hi) fk (hf i hi)).bound⟩⟩

theorem comp_le {f : Nat → F} {N : ℝ} (h : ‖qval f‖ ≤ N) : ∀ i, i < 4 → |⟪f i⟫| ≤ N := by
  have e : ‖qval f‖ = √(⟪f 0⟫ ^ 2 + ⟪f 1⟫ ^ 2 + ⟪f 2⟫ ^ 2 + ⟪f 3⟫ ^ 2) := norm_mkQ ..
  rw [e] at h
  refine forall_lt_four.mpr ⟨?_, ?_, ?_, ?_⟩ <;> refine (Real.abs_le_sqrt ?_).trans h <;>
    nlinarith [sq_nonneg ⟪f 0⟫, sq_nonneg ⟪f 1⟫, sq_nonneg ⟪f 2⟫, sq_nonneg ⟪f 3⟫]

/-- The sampling period: a finite number between `2⁻²⁰` and `2²⁰` in absolute value. -/
structure Period (ts : F) : Prop where
  fin : Finite ts
  lo : 1 / 2 ^ 20 ≤ |⟪ts⟫|
  hi : |⟪ts⟫| ≤ 2 ^ 20

theorem Period.ne (h : Period ts) : ⟪ts⟫ ≠ 0 := fun e => by
  have := h.lo
  rw [e, abs_zero] at this
  norm_num at this

/-- A small number divided by the period. -/
theorem Period.div (h : Period ts) {c : F} {C : ℝ} (fc : Finite c) (hc : ⟪c⟫ = C) (c1 : 1 ≤ C) (c2 : C ≤ 2) :
    Finite (c /ᶠ ts) ∧ |⟪c /ᶠ ts⟫ - C / ⟪ts⟫| ≤ 101 / 100 * |C / ⟪ts⟫| / 16777216 ∧ |C / ⟪ts⟫| ≤ C * 2 ^ 20 ∧
      C / 2 ^ 20 ≤ |C / ⟪ts⟫| := by
  have hp : 0 < |⟪ts⟫| := abs_pos.mpr h.ne
  have e : |C / ⟪ts⟫| = C / |⟪ts⟫| := by rw [abs_div, abs_of_pos (by linarith)]
  have k1 : |C / ⟪ts⟫| ≤ C * 2 ^ 20 := by
    rw [e, div_le_iff₀ hp]
    have := mul_le_mul_of_nonneg_left h.lo (by linarith : 0 ≤ C * 2 ^ 20)
    norm_num at this ⊢
    linarith
  have k2 : C / 2 ^ 20 ≤ |C / ⟪ts⟫| := by
    rw [e]
    exact div_le_div_of_nonneg_left (by linarith) hp h.hi
  have hf : Finite (c /ᶠ ts) := R.div_finite fc h.fin h.ne (by rw [hc]; norm_num at k1 ⊢; linarith)
  refine ⟨hf, ?_, k1, k2⟩
  have := (R.div_near fc h.fin h.ne hf).bound
  rw [hc] at this
  have hη := rη_le
  norm_num at hη k2 this ⊢
  linarith

theorem derivative_sum {X Y P η : ℝ} (X0 : 0 ≤ X) (η0 : 0 ≤ η) (hY : Y ≤ 1 * 2 ^ 20 * η)
    (hP : P ≤ (1001 / 1000) ^ 2 * X + 1001 / 1000 * Y) :
    P / 16777216 + η + ((101 / 100 + 1001 / 1000) / 16777216 * X + 1001 / 1000 * Y) ≤
      4 / 16777216 * X + 2 ^ 22 * η := by
  norm_num at *
  linarith

theorem derivative32 (hq : VecIs v 4 fq) (hp : VecIs w 4 fp) (Fq : ∀ i, i < 4 → Finite (fq i))
    (Fp : ∀ i, i < 4 → Finite (fp i)) (nq : ‖qval fq‖ ≤ 2) (np : ‖qval fp‖ ≤ 2) (hτ : Period ts) :
    ∃ d h, derivative v w ts = .ok d ∧ VecIs d 4 h ∧ (∀ i, i < 4 → Finite (h i)) ∧
      ‖qval h - ⟪ts⟫⁻¹ • (qval fp - qval fq)‖ ≤
        4 / 16777216 * ‖⟪ts⟫⁻¹ • (qval fp - qval fq)‖ + 2 ^ 23 * rη := by
  have η0 := rη_pos.le
  have hη := rη_val
  have bq := comp_le nq
  have bp := comp_le np
  have hz := Vec.zeros_is (F := F) (n := 4) (by omega) (by omega)
  have big : ∀ i, i < 4 → |⟪fp i⟫ - ⟪fq i⟫| ≤ 4 := fun i hi => (abs_sub _ _).trans (by linarith [bq i hi, bp i hi])
  have sf := fun i hi => R.sub_finite (Fp i hi) (Fq i hi) ((big i hi).trans (by norm_num))
  have sn := fun i (hi : i < 4) => (R.sub_near (Fp i hi) (Fq i hi) (sf i hi)).bound
  obtain ⟨u1, e1, h1⟩ := Vec.exec_of_stores (Vec.sub_stores hz hp hq) hz sf
  obtain ⟨kf, kn, kb, kl⟩ := hτ.div R.one_finite R.one_val le_rfl (by norm_num)
  obtain ⟨k, ek⟩ : ∃ k, k = (lit 1 : F) /ᶠ ts := ⟨_, rfl⟩
  rw [← ek] at kf kn
  obtain ⟨T, eT⟩ : ∃ T : ℝ, T = 1 / ⟪ts⟫ := ⟨_, rfl⟩
  rw [← eT] at kn kb kl
  have hk : |⟪k⟫| ≤ 1001 / 1000 * |T| := by
    have := le_of_dist (le_refl |T|) kn
    have := abs_nonneg T
    linarith
  have hs : ∀ i, i < 4 → |⟪fp i -ᶠ fq i⟫| ≤ 1001 / 1000 * |⟪fp i⟫ - ⟪fq i⟫| + rη := fun i hi => by
    have := le_of_dist (le_refl _) (sn i hi)
    have := abs_nonneg (⟪fp i⟫ - ⟪fq i⟫)
    linarith
  have pb : ∀ i, i < 4 → |⟪fp i -ᶠ fq i⟫ * ⟪k⟫| ≤ (1001 / 1000 * |⟪fp i⟫ - ⟪fq i⟫| + rη) * (1001 / 1000 * |T|) :=
    fun i hi => by
      rw [abs_mul]
      exact mul_le_mul (hs i hi) hk (abs_nonneg _) (by positivity)
  obtain ⟨d, h, e2, hd, hh⟩ := scale32 h1 sf kf (fun i hi => (pb i hi).trans (by
    have a := big i hi
    have t : (1001 / 1000 * |⟪fp i⟫ - ⟪fq i⟫| + rη) * (1001 / 1000 * |T|) ≤ 5 * (2 ^ 21) := by
      refine mul_le_mul ?_ (by norm_num at kb ⊢; linarith) (by positivity) (by norm_num)
      rw [hη]
      norm_num at a ⊢
      linarith
    exact t.trans (by norm_num)))
  refine ⟨d, h, ?_, hd, fun i hi => (hh i hi).1, ?_⟩
  · unfold derivative
    rw [Vec.init_new (by omega) (by omega), Res.ok_bind, e1, Res.ok_bind, ← ek]
    exact e2
  · have eG : ⟪ts⟫⁻¹ • (qval fp - qval fq) = ofSeq fun i => (⟪fp i⟫ - ⟪fq i⟫) * T := by
      rw [eT, one_div]
      apply Quaternion.ext <;> simp only [ofSeq, qval, Quaternion.re_smul, Quaternion.imI_smul, Quaternion.imJ_smul,
        Quaternion.imK_smul, Quaternion.re_sub, Quaternion.imI_sub, Quaternion.imJ_sub, Quaternion.imK_sub, mkQ_re, mkQ_imI,
        mkQ_imJ, mkQ_imK, smul_eq_mul] <;> ring
    rw [eG]
    refine (qval_dist (a := 4 / 16777216) (b := 2 ^ 22 * rη) (by norm_num) (by positivity) fun i hi => ?_).trans (le_of_eq (by ring))
    have t1 : |⟪fp i -ᶠ fq i⟫ * ⟪k⟫ - (⟪fp i⟫ - ⟪fq i⟫) * T| ≤
        |⟪fp i⟫ - ⟪fq i⟫| * (101 / 100 * |T| / 16777216) +
          (|⟪fp i⟫ - ⟪fq i⟫| / 16777216 + rη) * (1001 / 1000 * |T|) := by
      rw [show ⟪fp i -ᶠ fq i⟫ * ⟪k⟫ - (⟪fp i⟫ - ⟪fq i⟫) * T = (⟪fp i⟫ - ⟪fq i⟫) * (⟪k⟫ - T) +
        (⟪fp i -ᶠ fq i⟫ - (⟪fp i⟫ - ⟪fq i⟫)) * ⟪k⟫ by ring]
      refine (abs_add_le _ _).trans ?_
      rw [abs_mul, abs_mul]
      have := sn i hi
      gcongr
    refine (dist_trans (hh i hi).2 t1).trans ?_
    have p := pb i hi
    rw [abs_mul (⟪fp i⟫ - ⟪fq i⟫)]
    have hTη : |T| * rη ≤ 1 * 2 ^ 20 * rη := mul_le_mul_of_nonneg_right kb η0
    have X0 : 0 ≤ |⟪fp i⟫ - ⟪fq i⟫| * |T| := by positivity
    rw [show (1001 / 1000 * |⟪fp i⟫ - ⟪fq i⟫| + rη) * (1001 / 1000 * |T|) = (1001 / 1000) ^ 2 *
      (|⟪fp i⟫ - ⟪fq i⟫| * |T|) + 1001 / 1000 * (|T| * rη) by ring] at p
    rw [show |⟪fp i⟫ - ⟪fq i⟫| * (101 / 100 * |T| / 16777216) +
          (|⟪fp i⟫ - ⟪fq i⟫| / 16777216 + rη) * (1001 / 1000 * |T|) = (101 / 100 + 1001 / 1000) / 16777216 *
      (|⟪fp i⟫ - ⟪fq i⟫| * |T|) + 1001 / 1000 * (|T| * rη) by ring]
    exact derivative_sum X0 η0 hTη p

/-- The conjugate times two. -/
theorem twice32 (hq : VecIs v 4 fq) (Fq : ∀ i, i < 4 → Finite (fq i)) (nq : ‖qval fq‖ ≤ 2) :
    ∃ c c' h, Quat.conjugateNew v = .ok c ∧ exec c (Vec.mulByScalarInPlace (lit 2)) = .ok c' ∧ VecIs c' 4 h ∧
      (∀ i, i < 4 → Finite (h i)) ∧
      ‖qval h - (2 : ℝ) • star (qval fq)‖ ≤ 1 / 16777216 * ‖(2 : ℝ) • star (qval fq)‖ + 2 * rη := by
  obtain ⟨c, h, e1, hc, hf, ev⟩ := conj32 hq Fq
  have nh : ‖qval h‖ ≤ 2 := by rw [ev, norm_star]; exact nq
  obtain ⟨c', h', e2, hc', hh⟩ := scale32 hc hf R.two_finite fun i hi => by
    rw [R.two_val, abs_mul]
    have := comp_le nh i hi
    norm_num
    linarith
  refine ⟨c, c', h', e1, e2, hc', fun i hi => (hh i hi).1, ?_⟩
  have eG : (2 : ℝ) • star (qval fq) = ofSeq fun i => ⟪h i⟫ * 2 := by
    rw [← ev]
    apply Quaternion.ext <;> simp [ofSeq, qval] <;> ring
  rw [eG]
  refine qval_dist (by norm_num) rη_pos.le fun i hi => ?_
  have := (hh i hi).2
  rw [R.two_val] at this
  linarith

theorem method3_32 (hq : VecIs v 4 fq) (hd : VecIs w 4 fd) (Fq : ∀ i, i < 4 → Finite (fq i))
    (Fd : ∀ i, i < 4 → Finite (fd i)) (nq : ‖qval fq‖ ≤ 2) {D : Quaternion ℝ} (nD : ‖D‖ ≤ 2 ^ 22)
    (hD : ‖qval fd - D‖ ≤ 4 / 16777216 * ‖D‖ + 2 ^ 23 * rη) :
    ∃ u h, method3 v w = .ok u ∧ VecIs u 3 h ∧ ∀ i, i < 3 → Finite (h i) ∧
      |⟪h i⟫ - part ((2 : ℝ) • (star (qval fq) * D)) i| ≤ 30 / 2 ^ 24 * (2 * ‖qval fq‖ * ‖D‖) + 1 / 2 ^ 120 := by
  obtain ⟨c, c', h, e1, e2, hc, hf, hh⟩ := twice32 hq Fq nq
  have η0 := rη_pos.le
  have hη := rη_le
  have hM : ‖(2 : ℝ) • star (qval fq)‖ = 2 * ‖qval fq‖ := by
    rw [norm_smul, norm_star, Real.norm_eq_abs, abs_of_pos (by norm_num)]
  have nm : ‖qval h‖ ≤ ‖(2 : ℝ) • star (qval fq)‖ + ‖qval h - (2 : ℝ) • star (qval fq)‖ := by
    have := norm_add_le ((2 : ℝ) • star (qval fq)) (qval h - (2 : ℝ) • star (qval fq))
    rwa [add_sub_cancel] at this
  have nd : ‖qval fd‖ ≤ ‖D‖ + ‖qval fd - D‖ := by
    have := norm_add_le D (qval fd - D)
    rwa [add_sub_cancel] at this
  have hMle : ‖(2 : ℝ) • star (qval fq)‖ ≤ 4 := by rw [hM]; linarith
  have k1 : ‖qval h‖ ≤ 5 := by
    norm_num at hη
    linarith
  have k2 : ‖qval fd‖ ≤ 2 ^ 23 := by
    norm_num at hη nD ⊢
    linarith
  obtain ⟨m, z, e3, hm, fz, hz⟩ := C79_mul hc hd hf Fd ((mul_le_mul k1 k2 (norm_nonneg _) (by norm_num)).trans
    (by norm_num))
  obtain ⟨z0, z1, z2, z3⟩ := forall_lt_four.mp fz
  have hm' : VecIs m 4 (seq4 (z 0) (z 1) (z 2) (z 3)) := hm.congr (forall_lt_four.mpr ⟨rfl, rfl, rfl, rfl⟩)
  obtain ⟨u, e4, hu⟩ := getVectorPart_ok hm' z1 z2 z3
  refine ⟨u, _, ?_, hu, ?_⟩
  · unfold method3
    rw [e1, Res.ok_bind, e2, Res.ok_bind, e3, Res.ok_bind, e4]
  have key : ‖qval z - (2 : ℝ) • (star (qval fq) * D)‖ ≤ 30 / 2 ^ 24 * (2 * ‖qval fq‖ * ‖D‖) + 1 / 2 ^ 120 := by
    rw [← smul_mul_assoc]
    have e : qval z - (2 : ℝ) • star (qval fq) * D = (qval z - qval h * qval fd) +
      (qval h - (2 : ℝ) • star (qval fq)) * qval fd + (2 : ℝ) • star (qval fq) * (qval fd - D) := by
      rw [sub_mul, mul_sub]
      abel
    rw [e, ← hM]
    refine ((norm_add_le _ _).trans (add_le_add ((norm_add_le _ _).trans (add_le_add hz (norm_mul_le _ _)))
      (norm_mul_le _ _))).trans ?_
    refine product_bound nm nd (by linarith) (by linarith) (norm_nonneg _) (norm_nonneg _) (norm_nonneg _)
      (norm_nonneg _) (norm_nonneg _) hMle nD
  have kk := fun i hi => (part_le _ i hi).trans key
  have k0 := kk 0 (by omega)
  have k1 := kk 1 (by omega)
  have k2 := kk 2 (by omega)
  rw [part_sub _ _ _ (by omega)] at k0 k1 k2
  exact forall_lt_three.mpr ⟨⟨z1, k0⟩, ⟨z2, k1⟩, ⟨z3, k2⟩⟩

theorem toLocal32 (hq : VecIs v 4 fq) (hg : VecIs g 4 fg) (Fq : ∀ i, i < 4 → Finite (fq i))
    (Fg : ∀ i, i < 4 → Finite (fg i)) (nq : ‖qval fq‖ ≤ 2) (ng : ‖qval fg‖ ≤ 2 ^ 40) :
    ∃ u h, toLocal v g = .ok u ∧ VecIs u 3 h ∧ ∀ i, i < 3 → Finite (h i) ∧
      |⟪h i⟫ - part (qval fq * qval fg * star (qval fq)) i| ≤
        49 / 2 ^ 24 * (‖qval fq‖ ^ 2 * ‖qval fg‖) + 1 / 2 ^ 140 := by
  obtain ⟨m, z, e1, hm, fz, hz⟩ := C79_mul hq hg Fq Fg ((mul_le_mul nq ng (norm_nonneg _) (by norm_num)).trans
    (by norm_num))
  obtain ⟨m', e2, hm'⟩ := Vec.duplicate_ok hm fz
  obtain ⟨c, h, e3, hc, hf, ev⟩ := conj32 hq Fq
  have nz : ‖qval z‖ ≤ ‖qval fq‖ * ‖qval fg‖ + (24 / 2 ^ 24 * (‖qval fq‖ * ‖qval fg‖) + 24 / 2 ^ 150) := by
    have := norm_add_le (qval fq * qval fg) (qval z - qval fq * qval fg)
    rw [add_sub_cancel] at this
    exact this.trans (add_le_add (norm_mul_le _ _) hz)
  have nh : ‖qval h‖ = ‖qval fq‖ := by rw [ev, norm_star]
  have b1 : ‖qval fq‖ * ‖qval fg‖ ≤ 2 * 2 ^ 40 := mul_le_mul nq ng (norm_nonneg _) (by norm_num)
  have nz2 : ‖qval z‖ ≤ 2 ^ 43 := by norm_num at nz b1 ⊢; linarith
  obtain ⟨r, y, e4, hr, fy, hy⟩ := C79_mul hm' hc fz hf (by
    rw [nh]
    exact (mul_le_mul nz2 nq (norm_nonneg _) (by norm_num)).trans (by norm_num))
  obtain ⟨y0, y1, y2, y3⟩ := forall_lt_four.mp fy
  have hr' : VecIs r 4 (seq4 (y 0) (y 1) (y 2) (y 3)) := hr.congr (forall_lt_four.mpr ⟨rfl, rfl, rfl, rfl⟩)
  obtain ⟨u, e5, hu⟩ := getVectorPart_ok hr' y1 y2 y3
  refine ⟨u, _, ?_, hu, ?_⟩
  · unfold toLocal
    rw [e1, Res.ok_bind, e2, Res.ok_bind, e3, Res.ok_bind, C34_agree hm hm' hc, e4, Res.ok_bind, e5]
  have key : ‖qval y - qval fq * qval fg * star (qval fq)‖ ≤
      49 / 2 ^ 24 * (‖qval fq‖ ^ 2 * ‖qval fg‖) + 1 / 2 ^ 140 := by
    have e : qval y - qval fq * qval fg * star (qval fq) = (qval y - qval z * qval h) +
      (qval z - qval fq * qval fg) * star (qval fq) := by
      rw [ev, sub_mul]
      abel
    rw [e]
    rw [nh] at hy
    have t1 : ‖qval z‖ * ‖qval fq‖ ≤ (‖qval fq‖ * ‖qval fg‖ + (24 / 2 ^ 24 * (‖qval fq‖ * ‖qval fg‖) + 24 / 2 ^ 150)) *
      ‖qval fq‖ := mul_le_mul_of_nonneg_right nz (norm_nonneg _)
    have t2 : ‖qval z - qval fq * qval fg‖ * ‖star (qval fq)‖ ≤ (24 / 2 ^ 24 * (‖qval fq‖ * ‖qval fg‖) + 24 / 2 ^ 150) *
      ‖qval fq‖ := by
      rw [norm_star]
      exact mul_le_mul_of_nonneg_right hz (norm_nonneg _)
    refine ((norm_add_le _ _).trans (add_le_add hy ((norm_mul_le _ _).trans t2))).trans ?_
    have X0 : 0 ≤ ‖qval fq‖ ^ 2 * ‖qval fg‖ := by positivity
    rw [show (‖qval fq‖ * ‖qval fg‖ + (24 / 2 ^ 24 * (‖qval fq‖ * ‖qval fg‖) + 24 / 2 ^ 150)) * ‖qval fq‖ =
      (1 + 24 / 2 ^ 24) * (‖qval fq‖ ^ 2 * ‖qval fg‖) + 24 / 2 ^ 150 * ‖qval fq‖ by ring] at t1
    rw [show (24 / 2 ^ 24 * (‖qval fq‖ * ‖qval fg‖) + 24 / 2 ^ 150) * ‖qval fq‖ =
      24 / 2 ^ 24 * (‖qval fq‖ ^ 2 * ‖qval fg‖) + 24 / 2 ^ 150 * ‖qval fq‖ by ring]
    clear nz nz2 hz hy t2 b1
    generalize ‖qval fq‖ ^ 2 * ‖qval fg‖ = X at *
    generalize ‖qval z‖ * ‖qval fq‖ = Y at *
    norm_num at *
    linarith
  have kk := fun i hi => (part_le _ i hi).trans key
  have k0 := kk 0 (by omega)
  have k1 := kk 1 (by omega)
  have k2 := kk 2 (by omega)
  rw [part_sub _ _ _ (by omega)] at k0 k1 k2
  exact forall_lt_three.mpr ⟨⟨y1, k0⟩, ⟨y2, k1⟩, ⟨y3, k2⟩⟩

/-! ### The other two methods -/

theorem method1_sum {X Y P : ℝ} (X0 : 0 ≤ X) (η0 : 0 ≤ rη) (hY : Y ≤ 2 * 2 ^ 20 * rη)
    (hP : P ≤ (1001 / 1000) ^ 2 * X + 12012 / 1000 * Y) :
    P / 16777216 + rη + ((101 / 100 + 12012 / 1000) / 16777216 * X + 12012 / 1000 * Y) ≤
      15 / 2 ^ 24 * X + 1 / 2 ^ 120 := by
  have hη' : rη * 2 ^ 26 ≤ 1 / 2 ^ 121 := by rw [rη_val]; norm_num
  norm_num at *
  linarith

theorem method1_32 (hq : VecIs v 4 fq) (hp : VecIs w 4 fp) (Fq : ∀ i, i < 4 → Finite (fq i))
    (Fp : ∀ i, i < 4 → Finite (fp i)) (nq : ‖qval fq‖ ≤ 2) (np : ‖qval fp‖ ≤ 2) (hτ : Period ts) :
    ∃ u h, method1 v w ts = .ok u ∧ VecIs u 3 h ∧ ∀ i, i < 3 → Finite (h i) ∧
      |⟪h i⟫ - part ((2 / ⟪ts⟫) • (star (qval fq) * qval fp)) i| ≤
        15 / 2 ^ 24 * (2 / |⟪ts⟫| * (‖qval fq‖ * ‖qval fp‖)) + 1 / 2 ^ 120 := by
  have η0 := rη_pos.le
  obtain ⟨f0, f1, f2, f3⟩ := forall_lt_four.mp Fq
  obtain ⟨g0, g1, g2, g3⟩ := forall_lt_four.mp Fp
  have nf : ‖qval fq‖ = √(⟪fq 0⟫ ^ 2 + ⟪fq 1⟫ ^ 2 + ⟪fq 2⟫ ^ 2 + ⟪fq 3⟫ ^ 2) := norm_mkQ ..
  have ng : ‖qval fp‖ = √(⟪fp 0⟫ ^ 2 + ⟪fp 1⟫ ^ 2 + ⟪fp 2⟫ ^ 2 + ⟪fp 3⟫ ^ 2) := norm_mkQ ..
  have hS : ‖qval fq‖ * ‖qval fp‖ ≤ 2 * 2 := mul_le_mul nq np (norm_nonneg _) (by norm_num)
  have hA : ‖qval fq‖ * ‖qval fp‖ ≤ 2 ^ 126 := hS.trans (by norm_num)
  have bx := four_acc true true false f0 f1 f2 f3 g1 g0 g3 g2 hA (by
    rw [nf, ng]
    have := cauchy4 ⟪fq 0⟫ ⟪fq 1⟫ ⟪fq 2⟫ ⟪fq 3⟫ ⟪fp 1⟫ ⟪fp 0⟫ ⟪fp 3⟫ ⟪fp 2⟫
    rwa [show ⟪fp 1⟫ ^ 2 + ⟪fp 0⟫ ^ 2 + ⟪fp 3⟫ ^ 2 + ⟪fp 2⟫ ^ 2 = ⟪fp 0⟫ ^ 2 + ⟪fp 1⟫ ^ 2 + ⟪fp 2⟫ ^ 2 + ⟪fp 3⟫ ^ 2 by
      ring] at this)
  have by_ := four_acc false true true f0 f1 f2 f3 g2 g3 g0 g1 hA (by
    rw [nf, ng]
    have := cauchy4 ⟪fq 0⟫ ⟪fq 1⟫ ⟪fq 2⟫ ⟪fq 3⟫ ⟪fp 2⟫ ⟪fp 3⟫ ⟪fp 0⟫ ⟪fp 1⟫
    rwa [show ⟪fp 2⟫ ^ 2 + ⟪fp 3⟫ ^ 2 + ⟪fp 0⟫ ^ 2 + ⟪fp 1⟫ ^ 2 = ⟪fp 0⟫ ^ 2 + ⟪fp 1⟫ ^ 2 + ⟪fp 2⟫ ^ 2 + ⟪fp 3⟫ ^ 2 by
      ring] at this)
  have bz := four_acc true false true f0 f1 f2 f3 g3 g2 g1 g0 hA (by
    rw [nf, ng]
    have := cauchy4 ⟪fq 0⟫ ⟪fq 1⟫ ⟪fq 2⟫ ⟪fq 3⟫ ⟪fp 3⟫ ⟪fp 2⟫ ⟪fp 1⟫ ⟪fp 0⟫
    rwa [show ⟪fp 3⟫ ^ 2 + ⟪fp 2⟫ ^ 2 + ⟪fp 1⟫ ^ 2 + ⟪fp 0⟫ ^ 2 = ⟪fp 0⟫ ^ 2 + ⟪fp 1⟫ ^ 2 + ⟪fp 2⟫ ^ 2 + ⟪fp 3⟫ ^ 2 by
      ring] at this)
  simp only [addsub, Bool.false_eq_true, if_true, if_false, sgn] at bx by_ bz
  have h0 := Vec.zeros_is (F := F) (n := 3) (by omega) (by omega)
  obtain ⟨u1, e1, h1⟩ := h0.exec_set (i := 0) (by omega) bx.1
  obtain ⟨u2, e2, h2⟩ := h1.exec_set (i := 1) (by omega) by_.1
  obtain ⟨u3, e3, h3⟩ := h2.exec_set (i := 2) (by omega) bz.1
  obtain ⟨z, ez⟩ : ∃ z : Nat → F, z = seq3
    (((fq 0 *ᶠ fp 1) -ᶠ (fq 1 *ᶠ fp 0)) -ᶠ (fq 2 *ᶠ fp 3) +ᶠ (fq 3 *ᶠ fp 2))
    (((fq 0 *ᶠ fp 2) +ᶠ (fq 1 *ᶠ fp 3)) -ᶠ (fq 2 *ᶠ fp 0) -ᶠ (fq 3 *ᶠ fp 1))
    (((fq 0 *ᶠ fp 3) -ᶠ (fq 1 *ᶠ fp 2)) +ᶠ (fq 2 *ᶠ fp 1) -ᶠ (fq 3 *ᶠ fp 0)) := ⟨_, rfl⟩
  have h3' : VecIs u3 3 z := by
    rw [ez]
    exact h3.congr (forall_lt_three.mpr ⟨rfl, rfl, rfl⟩)
  have hz : ∀ i, i < 3 → Finite (z i) ∧ |⟪z i⟫ - part (star (qval fq) * qval fp) i| ≤
      12 * (ru * (‖qval fq‖ * ‖qval fp‖) + rη) := by
    rw [ez]
    refine forall_lt_three.mpr ⟨⟨bx.1, ?_⟩, ⟨by_.1, ?_⟩, ⟨bz.1, ?_⟩⟩
    · refine le_trans (le_of_eq (congrArg _ ?_)) bx.2
      simp only [seq3, part, qval, Quaternion.imI_mul, Quaternion.re_star, Quaternion.imI_star, Quaternion.imJ_star,
        Quaternion.imK_star, mkQ_re, mkQ_imI, mkQ_imJ, mkQ_imK]
      ring
    · refine le_trans (le_of_eq (congrArg _ ?_)) by_.2
      simp only [seq3, part, qval, Quaternion.imJ_mul, Quaternion.re_star, Quaternion.imI_star, Quaternion.imJ_star,
        Quaternion.imK_star, mkQ_re, mkQ_imI, mkQ_imJ, mkQ_imK]
      ring
    · refine le_trans (le_of_eq (congrArg _ ?_)) bz.2
      simp only [seq3, part, qval, Quaternion.imK_mul, Quaternion.re_star, Quaternion.imI_star, Quaternion.imJ_star,
        Quaternion.imK_star, mkQ_re, mkQ_imI, mkQ_imJ, mkQ_imK]
      ring
  obtain ⟨kf, kn, kb, kl⟩ := hτ.div R.two_finite R.two_val (by norm_num) le_rfl
  have pl : ∀ i, i < 3 → |part (star (qval fq) * qval fp) i| ≤ ‖qval fq‖ * ‖qval fp‖ := fun i hi =>
    (part_le _ i hi).trans ((norm_mul_le _ _).trans (by rw [norm_star]))
  have zl : ∀ i, i < 3 → |⟪z i⟫| ≤ 1001 / 1000 * (‖qval fq‖ * ‖qval fp‖) + 12 * rη := fun i hi => by
    have := le_of_dist (pl i hi) (hz i hi).2
    have hu : ru = 1 / 16777216 := by unfold ru; norm_num
    rw [hu] at this
    have : 0 ≤ ‖qval fq‖ * ‖qval fp‖ := by positivity
    linarith
  have e2τ : |2 / ⟪ts⟫| = 2 / |⟪ts⟫| := by rw [abs_div, abs_of_pos (by norm_num)]
  obtain ⟨k, ek⟩ : ∃ k, k = (lit 2 : F) /ᶠ ts := ⟨_, rfl⟩
  rw [← ek] at kf kn
  obtain ⟨T, eT⟩ : ∃ T : ℝ, T = 2 / ⟪ts⟫ := ⟨_, rfl⟩
  rw [← eT] at kn kb kl e2τ ⊢
  rw [← e2τ]
  have hk : |⟪k⟫| ≤ 1001 / 1000 * |T| := by
    have := le_of_dist (le_refl |T|) kn
    have := abs_nonneg T
    linarith
  have hη : 12 * rη ≤ 1 := by have := rη_le; norm_num at this; linarith
  have zk : ∀ i, i < 3 → |⟪z i⟫ * ⟪k⟫| ≤ (1001 / 1000 * (‖qval fq‖ * ‖qval fp‖) + 12 * rη) * (1001 / 1000 * |T|) :=
    fun i hi => by
      rw [abs_mul]
      exact mul_le_mul (zl i hi) hk (abs_nonneg _) (by positivity)
  obtain ⟨u, h, e4, hu, hh⟩ := scale32 h3' (fun i hi => (hz i hi).1) kf fun i hi => (zk i hi).trans (by
    have t : (1001 / 1000 * (‖qval fq‖ * ‖qval fp‖) + 12 * rη) * (1001 / 1000 * |T|) ≤ 6 * (2 ^ 22) :=
      mul_le_mul (by linarith) (by norm_num at kb ⊢; linarith) (by positivity) (by norm_num)
    exact t.trans (by norm_num))
  refine ⟨u, h, ?_, hu, fun i hi => ⟨(hh i hi).1, ?_⟩⟩
  · have q1 : VecIs v 4 (seq4 (fq 0) (fq 1) (fq 2) (fq 3)) := hq.congr (forall_lt_four.mpr ⟨rfl, rfl, rfl, rfl⟩)
    have q2 : VecIs w 4 (seq4 (fp 0) (fp 1) (fp 2) (fp 3)) := hp.congr (forall_lt_four.mpr ⟨rfl, rfl, rfl, rfl⟩)
    unfold method1
    simp only [Vec.init_new (F := F) (n := 3) (by omega) (by omega), Res.ok_bind, Quat.getQw_eq q1, Quat.getQx_eq q1,
      Quat.getQy_eq q1, Quat.getQz_eq q1, Quat.getQw_eq q2, Quat.getQx_eq q2, Quat.getQy_eq q2, Quat.getQz_eq q2,
      e1, e2, e3, ← ek]
    exact e4
  · have es : part (T • (star (qval fq) * qval fp)) i = part (star (qval fq) * qval fp) i * T := by
      revert i
      refine fun i hi => ?_
      revert i
      refine forall_lt_three.mpr ⟨?_, ?_, ?_⟩ <;> simp only [part, seq3, Quaternion.imI_smul, Quaternion.imJ_smul,
        Quaternion.imK_smul, smul_eq_mul] <;> ring
    rw [es]
    have t1 : |⟪z i⟫ * ⟪k⟫ - part (star (qval fq) * qval fp) i * T| ≤
        (‖qval fq‖ * ‖qval fp‖) * (101 / 100 * |T| / 16777216) +
          12 * (ru * (‖qval fq‖ * ‖qval fp‖) + rη) * (1001 / 1000 * |T|) := by
      rw [show ⟪z i⟫ * ⟪k⟫ - part (star (qval fq) * qval fp) i * T =
        part (star (qval fq) * qval fp) i * (⟪k⟫ - T) + (⟪z i⟫ - part (star (qval fq) * qval fp) i) * ⟪k⟫ by ring]
      refine (abs_add_le _ _).trans ?_
      rw [abs_mul, abs_mul]
      have a1 := pl i hi
      have a2 := (hz i hi).2
      have u0 : 0 ≤ ru := by unfold ru; norm_num
      gcongr
    refine (dist_trans (hh i hi).2 t1).trans ?_
    have p := zk i hi
    have hTη : |T| * rη ≤ 2 * 2 ^ 20 * rη := mul_le_mul_of_nonneg_right kb η0
    have X0 : 0 ≤ ‖qval fq‖ * ‖qval fp‖ * |T| := by positivity
    have hu : ru = 1 / 16777216 := by unfold ru; norm_num
    rw [show (1001 / 1000 * (‖qval fq‖ * ‖qval fp‖) + 12 * rη) * (1001 / 1000 * |T|) = (1001 / 1000) ^ 2 *
      (‖qval fq‖ * ‖qval fp‖ * |T|) + 12012 / 1000 * (|T| * rη) by ring] at p
    rw [show ‖qval fq‖ * ‖qval fp‖ * (101 / 100 * |T| / 16777216) +
          12 * (ru * (‖qval fq‖ * ‖qval fp‖) + rη) * (1001 / 1000 * |T|) = (101 / 100 + 12012 / 1000) / 16777216 *
      (‖qval fq‖ * ‖qval fp‖ * |T|) + 12012 / 1000 * (|T| * rη) by rw [hu]; ring,
      show |T| * (‖qval fq‖ * ‖qval fp‖) = ‖qval fq‖ * ‖qval fp‖ * |T| by ring]
    exact method1_sum X0 η0 hTη p

/-- The scalar product of two quaternions, component by component. -/
noncomputable def qdot (x y : Quaternion ℝ) : ℝ := x.re * y.re + x.imI * y.imI + x.imJ * y.imJ + x.imK * y.imK

theorem qdot_sum (x y : Quaternion ℝ) :
    |x.re * y.re| + |x.imI * y.imI| + |x.imJ * y.imJ| + |x.imK * y.imK| ≤ ‖x‖ * ‖y‖ := by
  have := cauchy4 x.re x.imI x.imJ x.imK y.re y.imI y.imJ y.imK
  rwa [quat_norm, quat_norm, Quaternion.normSq_def', Quaternion.normSq_def']

theorem qdot_le (x y : Quaternion ℝ) : |qdot x y| ≤ ‖x‖ * ‖y‖ := by
  refine le_trans ?_ (qdot_sum x y)
  unfold qdot
  refine (abs_add_le _ _).trans (add_le_add_left ((abs_add_le _ _).trans (add_le_add_left (abs_add_le _ _) _)) _)

/-- One row of the matrix of method 2 times the derivative. -/
theorem row32 {r : Nat → F} {G : Nat → ℝ} (Fr : ∀ i, i < 4 → Finite (r i)) (Fd : ∀ i, i < 4 → Finite (fd i))
    (hr : ∀ i, i < 4 → |⟪r i⟫ - G i| ≤ 1 / 16777216 * |G i| + rη) (nG : ‖ofSeq G‖ ≤ 4) {D : Quaternion ℝ}
    (nD : ‖D‖ ≤ 2 ^ 22) (hD : ‖qval fd - D‖ ≤ 4 / 16777216 * ‖D‖ + 2 ^ 23 * rη) :
    (∀ k, k ≤ 4 → Finite (sumUp k fun i => r i *ᶠ fd i)) ∧
      |⟪sumUp 4 fun i => r i *ᶠ fd i⟫ - qdot (ofSeq G) D| ≤ 30 / 2 ^ 24 * (‖ofSeq G‖ * ‖D‖) + 1 / 2 ^ 120 := by
  have η0 := rη_pos.le
  have hη := rη_le
  have hG := qval_dist (by norm_num) η0 hr
  have nm : ‖qval r‖ ≤ ‖ofSeq G‖ + ‖qval r - ofSeq G‖ := by
    have := norm_add_le (ofSeq G) (qval r - ofSeq G)
    rwa [add_sub_cancel] at this
  have nd : ‖qval fd‖ ≤ ‖D‖ + ‖qval fd - D‖ := by
    have := norm_add_le D (qval fd - D)
    rwa [add_sub_cancel] at this
  have k1 : ‖qval r‖ ≤ 5 := by
    norm_num at hη
    linarith
  have k2 : ‖qval fd‖ ≤ 2 ^ 23 := by
    norm_num at hη nD ⊢
    linarith
  have hs : ∑ i ∈ range 4, |⟪r i⟫ * ⟪fd i⟫| ≤ ‖qval r‖ * ‖qval fd‖ := by
    have := qdot_sum (qval r) (qval fd)
    simp only [Finset.sum_range_succ, Finset.sum_range_zero, zero_add]
    simpa only [qval, mkQ_re, mkQ_imI, mkQ_imJ, mkQ_imK] using this
  have key := dot_acc (n := 4) le_rfl Fr Fd (hs.trans ((mul_le_mul k1 k2 (norm_nonneg _) (by norm_num)).trans
    (by norm_num)))
  refine ⟨fun k hk => (key k hk).1, ?_⟩
  have h4 := (key 4 le_rfl).2
  have e : ∑ i ∈ range 4, ⟪r i⟫ * ⟪fd i⟫ - qdot (ofSeq G) D =
      qdot (qval r - ofSeq G) (qval fd) + qdot (ofSeq G) (qval fd - D) := by
    simp only [Finset.sum_range_succ, Finset.sum_range_zero, zero_add, qdot, qval, ofSeq, mkQ_re, mkQ_imI, mkQ_imJ,
      mkQ_imK, Quaternion.re_sub, Quaternion.imI_sub, Quaternion.imJ_sub, Quaternion.imK_sub]
    ring
  have t : |∑ i ∈ range 4, ⟪r i⟫ * ⟪fd i⟫ - qdot (ofSeq G) D| ≤
      ‖qval r - ofSeq G‖ * ‖qval fd‖ + ‖ofSeq G‖ * ‖qval fd - D‖ := by
    rw [e]
    exact (abs_add_le _ _).trans (add_le_add (qdot_le _ _) (qdot_le _ _))
  refine (dist_trans h4 t).trans ?_
  have pb := product_bound nm nd (by linarith) (by linarith) (norm_nonneg _) (norm_nonneg _) (norm_nonneg _)
      (norm_nonneg _) (norm_nonneg _) nG nD
  have hu : ru = 1 / 16777216 := by unfold ru; norm_num
  have hm0 : 0 ≤ ‖qval r‖ * ‖qval fd‖ := by positivity
  have hv := rη_val
  refine le_trans ?_ pb
  rw [hu, hv, ← add_assoc]
  refine add_le_add_left (add_le_add_left ?_ _) _
  generalize ∑ i ∈ range 4, |⟪r i⟫ * ⟪fd i⟫| = S at hs
  generalize ‖qval r‖ * ‖qval fd‖ = P at hs hm0
  norm_num
  linarith

/-- The rows of the matrix of method 2, before the multiplication by two. -/
def rows2 (f : Nat → F) (i j : Nat) : F :=
  seq3 (seq4 (Scalar.neg (f 1)) (f 0) (f 3) (Scalar.neg (f 2)) j)
    (seq4 (Scalar.neg (f 2)) (Scalar.neg (f 3)) (f 0) (f 1) j)
    (seq4 (Scalar.neg (f 3)) (f 2) (Scalar.neg (f 1)) (f 0) j) i

theorem method2_32 (hq : VecIs v 4 fq) (hd : VecIs w 4 fd) (Fq : ∀ i, i < 4 → Finite (fq i))
    (Fd : ∀ i, i < 4 → Finite (fd i)) (nq : ‖qval fq‖ ≤ 2) {D : Quaternion ℝ} (nD : ‖D‖ ≤ 2 ^ 22)
    (hD : ‖qval fd - D‖ ≤ 4 / 16777216 * ‖D‖ + 2 ^ 23 * rη) :
    ∃ u h, method2 v w = .ok u ∧ VecIs u 3 h ∧ ∀ i, i < 3 → Finite (h i) ∧
      |⟪h i⟫ - part ((2 : ℝ) • (star (qval fq) * D)) i| ≤ 30 / 2 ^ 24 * (2 * ‖qval fq‖ * ‖D‖) + 1 / 2 ^ 120 := by
  have η0 := rη_pos.le
  obtain ⟨f0, f1, f2, f3⟩ := forall_lt_four.mp Fq
  have n1 := R.neg_finite f1
  have n2 := R.neg_finite f2
  have n3 := R.neg_finite f3
  have h0 := Mat.zeros_is (F := F) (r := 4) (c := 3) (by omega) (by omega) (by omega) (by omega)
  obtain ⟨m1, e1, h1⟩ := h0.exec_set (i := 0) (j := 0) (by omega) (by omega) n1
  obtain ⟨m2, e2, h2⟩ := h1.exec_set (i := 1) (j := 0) (by omega) (by omega) f0
  obtain ⟨m3, e3, h3⟩ := h2.exec_set (i := 2) (j := 0) (by omega) (by omega) f3
  obtain ⟨m4, e4, h4⟩ := h3.exec_set (i := 3) (j := 0) (by omega) (by omega) n2
  obtain ⟨m5, e5, h5⟩ := h4.exec_set (i := 0) (j := 1) (by omega) (by omega) n2
  obtain ⟨m6, e6, h6⟩ := h5.exec_set (i := 1) (j := 1) (by omega) (by omega) n3
  obtain ⟨m7, e7, h7⟩ := h6.exec_set (i := 2) (j := 1) (by omega) (by omega) f0
  obtain ⟨m8, e8, h8⟩ := h7.exec_set (i := 3) (j := 1) (by omega) (by omega) f1
  obtain ⟨m9, e9, h9⟩ := h8.exec_set (i := 0) (j := 2) (by omega) (by omega) n3
  obtain ⟨m10, e10, h10⟩ := h9.exec_set (i := 1) (j := 2) (by omega) (by omega) f2
  obtain ⟨m11, e11, h11⟩ := h10.exec_set (i := 2) (j := 2) (by omega) (by omega) n1
  obtain ⟨m12, e12, h12⟩ := h11.exec_set (i := 3) (j := 2) (by omega) (by omega) f0
  have hm : MatIs m12 4 3 (fun i j => rows2 fq j i) := by
    refine h12.congr fun i j hi hj => ?_
    revert i; refine forall_lt_four.mpr ?_
    revert j; refine forall_lt_three.mpr ?_
    simp [rows2, seq3, seq4]
  have Fr : ∀ i j, i < 3 → j < 4 → Finite (rows2 fq i j) := by
    intro i j hi hj
    revert i; refine forall_lt_three.mpr ?_
    revert j; refine forall_lt_four.mpr ?_
    simp [rows2, seq3, seq4, *]
  have br : ∀ i j, i < 3 → j < 4 → |⟪rows2 fq i j⟫| ≤ 2 := by
    intro i j hi hj
    obtain ⟨b0, b1, b2, b3⟩ := forall_lt_four.mp (comp_le nq)
    revert i; refine forall_lt_three.mpr ?_
    revert j; refine forall_lt_four.mpr ?_
    simp [rows2, seq3, seq4, R.neg_val f1, R.neg_val f2, R.neg_val f3, b0, b1, b2, b3]
  obtain ⟨m13, e13, h13⟩ := Mat.duplicate_ok hm fun i j hi hj => Fr j i hj hi
  obtain ⟨m14, e14, h14⟩ := Mat.exec_transpose h13 fun i j hi hj => Fr j i hj hi
  have sf : ∀ i j, i < 3 → j < 4 → Finite (rows2 fq i j *ᶠ lit 2) := fun i j hi hj =>
    R.mul_finite (Fr i j hi hj) R.two_finite (by
      rw [R.two_val, abs_mul]
      have := br i j hi hj
      norm_num
      linarith)
  obtain ⟨m15, e15, h15⟩ := Mat.exec_of_stores (Mat.mulByScalarInPlace_stores (x := lit 2) h14) h14 sf
  have sn : ∀ i j, i < 3 → j < 4 → |⟪rows2 fq i j *ᶠ lit 2⟫ - ⟪rows2 fq i j⟫ * 2| ≤
      1 / 16777216 * |⟪rows2 fq i j⟫ * 2| + rη := fun i j hi hj => by
    have := (R.mul_near (Fr i j hi hj) R.two_finite (sf i j hi hj)).bound
    rw [R.two_val] at this
    linarith
  have nr : ∀ i, i < 3 → ‖ofSeq fun j => ⟪rows2 fq i j⟫ * 2‖ = 2 * ‖qval fq‖ := by
    have e : ‖qval fq‖ = √(⟪fq 0⟫ ^ 2 + ⟪fq 1⟫ ^ 2 + ⟪fq 2⟫ ^ 2 + ⟪fq 3⟫ ^ 2) := norm_mkQ ..
    have e4 : (2 : ℝ) = √4 := by
      rw [show (4 : ℝ) = 2 ^ 2 by norm_num, Real.sqrt_sq (by norm_num)]
    rw [e]
    refine forall_lt_three.mpr ⟨?_, ?_, ?_⟩ <;>
    · rw [ofSeq, norm_mkQ]
      nth_rewrite 5 [e4]
      rw [← Real.sqrt_mul (by norm_num)]
      simp only [rows2, seq3, seq4, R.neg_val f1, R.neg_val f2, R.neg_val f3]
      congr 1
      ring
  have key := fun i (hi : i < 3) => row32 (r := fun j => rows2 fq i j *ᶠ lit 2) (G := fun j => ⟪rows2 fq i j⟫ * 2)
    (fun j hj => sf i j hi hj) Fd (fun j hj => sn i j hi hj) (by rw [nr i hi]; linarith) nD hD
  obtain ⟨b, e16, h16⟩ := Vec.convertToMatrix_ok hd Fd
  obtain ⟨m, e17, h17⟩ := Mat.mulNew_ok h15 h16 fun i j l hi _ hl => (key i hi).1 (l + 1) hl
  obtain ⟨u, e18, h18⟩ := Mat.colToVector_ok (j := 0) h17 (by omega) fun i hi => (key i hi).1 4 le_rfl
  refine ⟨u, _, ?_, h18, fun i hi => ⟨(key i hi).1 4 le_rfl, ?_⟩⟩
  · have q1 : VecIs v 4 (seq4 (fq 0) (fq 1) (fq 2) (fq 3)) := hq.congr (forall_lt_four.mpr ⟨rfl, rfl, rfl, rfl⟩)
    unfold method2
    rw [Quat.getQw_eq q1, Res.ok_bind, Quat.getQx_eq q1, Res.ok_bind, Quat.getQy_eq q1, Res.ok_bind, Quat.getQz_eq q1,
      Res.ok_bind, Mat.init_new (F := F) (r := 4) (c := 3) (by omega) (by omega) (by omega) (by omega), Res.ok_bind]
    rw [e1, Res.ok_bind, e2, Res.ok_bind, e3, Res.ok_bind, e4, Res.ok_bind, e5, Res.ok_bind,
      e6, Res.ok_bind, e7, Res.ok_bind, e8, Res.ok_bind, e9, Res.ok_bind, e10, Res.ok_bind, e11,
      Res.ok_bind, e12, Res.ok_bind, e13, Res.ok_bind, e14, Res.ok_bind]
    rw [e15, Res.ok_bind, e16, Res.ok_bind, e17, Res.ok_bind, e18]
  · have k := (key i hi).2
    rw [nr i hi] at k
    refine le_trans (le_of_eq (congrArg _ (congrArg _ ?_))) k
    clear k
    revert i
    refine forall_lt_three.mpr ⟨?_, ?_, ?_⟩ <;> simp only [qdot, ofSeq, mkQ_re, mkQ_imI, mkQ_imJ, mkQ_imK, part, seq3,
      rows2, seq4, Quaternion.imI_smul, Quaternion.imJ_smul, Quaternion.imK_smul, smul_eq_mul, Quaternion.imI_mul,
      Quaternion.imJ_mul, Quaternion.imK_mul, Quaternion.re_star, Quaternion.imI_star, Quaternion.imJ_star,
      Quaternion.imK_star, qval, R.neg_val f1, R.neg_val f2, R.neg_val f3] <;> ring

/-! ### The simulation -/

theorem column32 {A : Mat F} {x : Nat → Nat → F} {c n : Nat} (hA : MatIs A 4 c x) (hn : n < c)
    (hf : ∀ i, i < 4 → Finite (x i n)) : ∃ v, column A n = .ok v ∧ VecIs v 4 (fun i => x i n) := by
  obtain ⟨h0, h1, h2, h3⟩ := forall_lt_four.mp hf
  obtain ⟨v, e, h⟩ := Quat.fillq_ok (F := F) (Vec.zeros_is (n := 4) (by omega) (by omega)) h0 h1 h2 h3
  refine ⟨v, ?_, h.congr (forall_lt_four.mpr ⟨rfl, rfl, rfl, rfl⟩)⟩
  unfold column
  rw [Vec.init_new (by omega) (by omega), Res.ok_bind, hA.get 0 n (by omega) hn, Res.ok_bind,
    hA.get 1 n (by omega) hn, Res.ok_bind, hA.get 2 n (by omega) hn, Res.ok_bind,
    hA.get 3 n (by omega) hn, Res.ok_bind, exec_ok e]

theorem table32 {r k : Nat} (h1 : 1 ≤ r) (h2 : r ≤ 4) (h3 : 1 ≤ k) (h4 : k ≤ 4) :
    ∃ m : Mat F, table r k = .ok m ∧ MatIs m r k (fun _ _ => lit 0) := by
  have h0 := Mat.zeros_is (F := F) (r := r) (c := k) h1 h2 h3 h4
  obtain ⟨m, e, h⟩ := Mat.exec_of_stores (Mat.fill_stores (x := lit 0) h0) h0 fun _ _ _ _ => R.zero_finite
  refine ⟨m, ?_, h⟩
  unfold table
  rw [Mat.init_new h1 h2 h3 h4, Res.ok_bind, e]

/-- The columns below `n` of a table with three rows are known up to `ε`. -/
def Cols32 (m : Mat F) (k n : Nat) (T : Nat → Nat → ℝ) (ε : Nat → ℝ) : Prop :=
  ∃ f, MatIs m 3 k f ∧ ∀ i j, i < 3 → j < n → Finite (f i j) ∧ |⟪f i j⟫ - T j i| ≤ ε j

theorem Cols32.next {m : Mat F} {k n : Nat} {T : Nat → Nat → ℝ} {ε : Nat → ℝ} {h : Nat → F} (hm : Cols32 m k n T ε)
    (hv : VecIs v 3 h) (hh : ∀ i, i < 3 → Finite (h i) ∧ |⟪h i⟫ - T n i| ≤ ε n) (hn : n < k) :
    ∃ m', exec m (Mat.setCol v n) = .ok m' ∧ Cols32 m' k (n + 1) T ε := by
  obtain ⟨f, hf, hb⟩ := hm
  obtain ⟨m', e, h'⟩ := Mat.setCol_ok hf hv hn fun i hi => (hh i hi).1
  refine ⟨m', exec_ok e, _, h', fun i j hi hj => ?_⟩
  by_cases hjn : j = n
  · subst hjn
    simp only [if_true]
    exact hh i hi
  · simp only [hjn, if_false]
    exact hb i j hi (by omega)

/-- Column `n` of a table of attitudes, as a quaternion. -/
noncomputable def colF (x : Nat → Nat → F) (n : Nat) : Quaternion ℝ := qval fun i => x i n

/-- The rate of the step from column `n` to column `n + 1`, component by component. -/
noncomputable def rateT (x : Nat → Nat → F) (τ : ℝ) (n : Nat) : Nat → ℝ :=
  part ((2 / τ) • (star (colF x n) * colF x (n + 1)))

/-- How far the rate may be off. -/
noncomputable def rateE (x : Nat → Nat → F) (τ : ℝ) (n : Nat) : ℝ :=
  30 / 2 ^ 24 * (2 / |τ| * (‖colF x n‖ * ‖colF x (n + 1) - colF x n‖)) + 1 / 2 ^ 120

/-- A global vector in the frame of the sensor. -/
noncomputable def fieldT (x : Nat → Nat → F) (g : Quaternion ℝ) (n : Nat) : Nat → ℝ :=
  part (colF x n * g * star (colF x n))

noncomputable def fieldE (x : Nat → Nat → F) (g : Quaternion ℝ) (n : Nat) : ℝ :=
  49 / 2 ^ 24 * (‖colF x n‖ ^ 2 * ‖g‖) + 1 / 2 ^ 140

variable {A : Mat F} {x : Nat → Nat → F} {va vm : Vec F} {fa fm : Nat → F} {k n : Nat}

theorem simStep32 {s : Sim F} {f : Nat → Nat → F} (hA : MatIs A 4 (k + 1) x)
    (Fx : ∀ i j, i < 4 → j < k + 1 → Finite (x i j)) (Nx : ∀ j, j < k + 1 → ‖colF x j‖ ≤ 2) (hn : n < k)
    (hτ : Period ts) (ha : VecIs va 4 fa) (hm : VecIs vm 4 fm) (Fa : ∀ i, i < 4 → Finite (fa i))
    (Fm : ∀ i, i < 4 → Finite (fm i)) (na : ‖qval fa‖ ≤ 2 ^ 40) (nm : ‖qval fm‖ ≤ 2 ^ 40)
    (h0 : MatIs s.rates 3 3 f) (h1 : Cols32 s.gyr k n (rateT x ⟪ts⟫) (rateE x ⟪ts⟫))
    (h2 : Cols32 s.acc k n (fieldT x (qval fa)) (fieldE x (qval fa)))
    (h3 : Cols32 s.mag k n (fieldT x (qval fm)) (fieldE x (qval fm))) :
    ∃ s' f', simStep A va vm ts n s = .ok s' ∧ MatIs s'.rates 3 3 f' ∧
      Cols32 s'.gyr k (n + 1) (rateT x ⟪ts⟫) (rateE x ⟪ts⟫) ∧
      Cols32 s'.acc k (n + 1) (fieldT x (qval fa)) (fieldE x (qval fa)) ∧
      Cols32 s'.mag k (n + 1) (fieldT x (qval fm)) (fieldE x (qval fm)) := by
  have F0 := fun i hi => Fx i n hi (by omega)
  have F1 := fun i hi => Fx i (n + 1) hi (by omega)
  obtain ⟨q0, e1, k1⟩ := column32 hA (show n < k + 1 by omega) F0
  obtain ⟨q1, e2, k2⟩ := column32 hA (show n + 1 < k + 1 by omega) F1
  have N0 := Nx n (by omega)
  have N1 := Nx (n + 1) (by omega)
  obtain ⟨qd, hd, e3, k3, Fd, kd⟩ := derivative32 k1 k2 F0 F1 N0 N1 hτ
  obtain ⟨w1, g1, e4, k4, l1⟩ := method1_32 k1 k2 F0 F1 N0 N1 hτ
  have τ0 : (0 : ℝ) < |⟪ts⟫| := abs_pos.mpr hτ.ne
  have eD : ‖⟪ts⟫⁻¹ • (colF x (n + 1) - colF x n)‖ = 1 / |⟪ts⟫| * ‖colF x (n + 1) - colF x n‖ := by
    rw [norm_smul, Real.norm_eq_abs, abs_inv, one_div]
  have nD : ‖⟪ts⟫⁻¹ • (colF x (n + 1) - colF x n)‖ ≤ 2 ^ 22 := by
    rw [eD]
    have a1 : 1 / |⟪ts⟫| ≤ 2 ^ 20 := by
      rw [div_le_iff₀ τ0]
      have := hτ.lo
      norm_num at this ⊢
      linarith
    have a2 : ‖colF x (n + 1) - colF x n‖ ≤ 4 := (norm_sub_le _ _).trans (by linarith)
    exact (mul_le_mul a1 a2 (norm_nonneg _) (by norm_num)).trans (by norm_num)
  obtain ⟨w2, g2, e5, k5, l2⟩ := method2_32 k1 k3 F0 Fd N0 nD kd
  obtain ⟨w3, g3, e6, k6, l3⟩ := method3_32 k1 k3 F0 Fd N0 nD kd
  have l3' : ∀ i, i < 3 → Finite (g3 i) ∧ |⟪g3 i⟫ - rateT x ⟪ts⟫ n i| ≤ rateE x ⟪ts⟫ n := fun i hi => by
    refine ⟨(l3 i hi).1, ?_⟩
    have : |⟪g3 i⟫ - part ((2 : ℝ) • (star (colF x n) * ⟪ts⟫⁻¹ • (colF x (n + 1) - colF x n))) i| ≤ _ := (l3 i hi).2
    rw [part_quotient _ _ _ i hi] at this
    refine this.trans (le_of_eq ?_)
    unfold rateE
    change 30 / 2 ^ 24 * (2 * ‖colF x n‖ * ‖⟪ts⟫⁻¹ • (colF x (n + 1) - colF x n)‖) + 1 / 2 ^ 120 = _
    rw [eD]
    ring
  obtain ⟨r1, e7, k7⟩ := Mat.setCol_ok h0 k4 (show 0 < 3 by omega) fun i hi => (l1 i hi).1
  obtain ⟨r2, e8, k8⟩ := Mat.setCol_ok k7 k5 (show 1 < 3 by omega) fun i hi => (l2 i hi).1
  obtain ⟨r3, e9, k9⟩ := Mat.setCol_ok k8 k6 (show 2 < 3 by omega) fun i hi => (l3 i hi).1
  obtain ⟨g, e10, k10⟩ := h1.next k6 l3' hn
  obtain ⟨la, ga, e11, k11, l11⟩ := toLocal32 k1 ha F0 Fa N0 na
  obtain ⟨C, e12, k12⟩ := h2.next k11 l11 hn
  obtain ⟨lm, gm, e13, k13, l13⟩ := toLocal32 k1 hm F0 Fm N0 nm
  obtain ⟨M, e14, k14⟩ := h3.next k13 l13 hn
  refine ⟨⟨r3, g, C, M⟩, _, ?_, k9, k10, k12, k14⟩
  unfold simStep
  rw [e1, Res.ok_bind, e2, Res.ok_bind, e3, Res.ok_bind, e4, Res.ok_bind, exec_ok e7, Res.ok_bind, e5, Res.ok_bind,
    exec_ok e8, Res.ok_bind, e6, Res.ok_bind, exec_ok e9, Res.ok_bind, e10, Res.ok_bind, e11, Res.ok_bind, e12,
    Res.ok_bind, e13, Res.ok_bind, e14, Res.ok_bind]

/-! ### C132: the simulated sensors in binary32 -/

/-- C132: in binary32, for every table of finite attitudes of norm at most 2, every period between `2 ^ -20` and
`2 ^ 20` in magnitude and all global vectors up to `2 ^ 40`, the simulation succeeds.  Column `n` of the gyrometer is the
vector part of `(2 / ts) · conj(q n) · q (n + 1)` up to `30 / 2 ^ 24` of `(2 / |ts|) ‖q n‖ ‖q (n + 1) - q n‖`, and those of the
accelerometer and the magnetometer are the vector part of `q n · g · conj(q n)` up to `49 / 2 ^ 24` of `‖q n‖² ‖g‖`. -/
theorem C132_sensors (hA : MatIs A 4 (k + 1) x) (hk : 1 ≤ k)
    (Fx : ∀ i j, i < 4 → j < k + 1 → Finite (x i j)) (Nx : ∀ j, j < k + 1 → ‖qval fun i => x i j‖ ≤ 2)
    (hτ : Period ts) (ha : VecIs va 4 fa) (hm : VecIs vm 4 fm) (Fa : ∀ i, i < 4 → Finite (fa i))
    (Fm : ∀ i, i < 4 → Finite (fm i)) (na : ‖qval fa‖ ≤ 2 ^ 40) (nm : ‖qval fm‖ ≤ 2 ^ 40) :
    ∃ s G C M, simulate A va vm ts k = .ok s ∧ MatIs s.gyr 3 k G ∧ MatIs s.acc 3 k C ∧ MatIs s.mag 3 k M ∧
      ∀ n, n < k → ∃ q p, (q = qval fun i => x i n) ∧ (p = qval fun i => x i (n + 1)) ∧ ∀ i, i < 3 →
        Finite (G i n) ∧ Finite (C i n) ∧ Finite (M i n) ∧
        |⟪G i n⟫ - part ((2 / ⟪ts⟫) • (star q * p)) i| ≤
          30 / 2 ^ 24 * (2 / |⟪ts⟫| * (‖q‖ * ‖p - q‖)) + 1 / 2 ^ 120 ∧
        |⟪C i n⟫ - part (q * qval fa * star q) i| ≤ 49 / 2 ^ 24 * (‖q‖ ^ 2 * ‖qval fa‖) + 1 / 2 ^ 140 ∧
        |⟪M i n⟫ - part (q * qval fm * star q) i| ≤ 49 / 2 ^ 24 * (‖q‖ ^ 2 * ‖qval fm‖) + 1 / 2 ^ 140 := by
  have hk4 : k ≤ 4 := by have := hA.cle; omega
  obtain ⟨r, e1, h1⟩ := table32 (F := F) (r := 3) (k := 3) (by omega) (by omega) (by omega) (by omega)
  obtain ⟨z, e2, h2⟩ := table32 (F := F) (r := 3) (k := k) (by omega) (by omega) hk hk4
  have hz : ∀ T ε, Cols32 z k 0 T ε := fun T ε => ⟨_, h2, fun _ _ _ h => absurd h (by omega)⟩
  obtain ⟨s, e, -, ⟨G, h5, b5⟩, ⟨C, h6, b6⟩, ⟨M, h7, b7⟩⟩ := foldRange_inv (simStep A va vm ts)
    (fun n s => (∃ f : Nat → Nat → F, MatIs s.rates 3 3 f) ∧ Cols32 s.gyr k n (rateT x ⟪ts⟫) (rateE x ⟪ts⟫) ∧
      Cols32 s.acc k n (fieldT x (qval fa)) (fieldE x (qval fa)) ∧
      Cols32 s.mag k n (fieldT x (qval fm)) (fieldE x (qval fm))) 0 k (by omega) ⟨r, z, z, z⟩
    ⟨⟨_, h1⟩, hz _ _, hz _ _, hz _ _⟩ (by
      rintro n s - hn ⟨⟨f, h3⟩, h5, h6, h7⟩
      obtain ⟨s', f', e, k1, k2, k3, k4⟩ := simStep32 hA Fx Nx hn hτ ha hm Fa Fm na nm h3 h5 h6 h7
      exact ⟨s', e, ⟨f', k1⟩, k2, k3, k4⟩)
  refine ⟨s, G, C, M, ?_, h5, h6, h7, fun n hn => ⟨_, _, rfl, rfl, fun i hi => ?_⟩⟩
  · unfold simulate
    rw [e1, Res.ok_bind, e2, Res.ok_bind, Res.ok_bind, Res.ok_bind, e]
  · obtain ⟨a1, a2⟩ := b5 i n hi hn
    obtain ⟨a3, a4⟩ := b6 i n hi hn
    obtain ⟨a5, a6⟩ := b7 i n hi hn
    exact ⟨a1, a3, a5, a2, a4, a6⟩

/-- C132: the three methods of the test for one step, in binary32.  All of them succeed; the second and the third, which
start from the difference quotient, are off by a part of the difference of the two attitudes, the first one by a part
of the attitudes themselves. -/
theorem C132_methods (hq : VecIs v 4 fq) (hp : VecIs w 4 fp) (Fq : ∀ i, i < 4 → Finite (fq i))
    (Fp : ∀ i, i < 4 → Finite (fp i)) (nq : ‖qval fq‖ ≤ 2) (np : ‖qval fp‖ ≤ 2) (hτ : Period ts) :
    ∃ qd w1 w2 w3 h1 h2 h3, derivative v w ts = .ok qd ∧ method1 v w ts = .ok w1 ∧ method2 v qd = .ok w2 ∧
      method3 v qd = .ok w3 ∧ VecIs w1 3 h1 ∧ VecIs w2 3 h2 ∧ VecIs w3 3 h3 ∧ ∀ i, i < 3 →
        |⟪h1 i⟫ - part ((2 / ⟪ts⟫) • (star (qval fq) * qval fp)) i| ≤
          15 / 2 ^ 24 * (2 / |⟪ts⟫| * (‖qval fq‖ * ‖qval fp‖)) + 1 / 2 ^ 120 ∧
        |⟪h2 i⟫ - part ((2 / ⟪ts⟫) • (star (qval fq) * qval fp)) i| ≤
          30 / 2 ^ 24 * (2 / |⟪ts⟫| * (‖qval fq‖ * ‖qval fp - qval fq‖)) + 1 / 2 ^ 120 ∧
        |⟪h3 i⟫ - part ((2 / ⟪ts⟫) • (star (qval fq) * qval fp)) i| ≤
          30 / 2 ^ 24 * (2 / |⟪ts⟫| * (‖qval fq‖ * ‖qval fp - qval fq‖)) + 1 / 2 ^ 120 := by
  obtain ⟨qd, hd, e3, k3, Fd, kd⟩ := derivative32 hq hp Fq Fp nq np hτ
  obtain ⟨w1, g1, e4, k4, l1⟩ := method1_32 hq hp Fq Fp nq np hτ
  have τ0 : (0 : ℝ) < |⟪ts⟫| := abs_pos.mpr hτ.ne
  have eD : ‖⟪ts⟫⁻¹ • (qval fp - qval fq)‖ = 1 / |⟪ts⟫| * ‖qval fp - qval fq‖ := by
    rw [norm_smul, Real.norm_eq_abs, abs_inv, one_div]
  have nD : ‖⟪ts⟫⁻¹ • (qval fp - qval fq)‖ ≤ 2 ^ 22 := by
    rw [eD]
    have a1 : 1 / |⟪ts⟫| ≤ 2 ^ 20 := by
      rw [div_le_iff₀ τ0]
      have := hτ.lo
      norm_num at this ⊢
      linarith
    have a2 : ‖qval fp - qval fq‖ ≤ 4 := (norm_sub_le _ _).trans (by linarith)
    exact (mul_le_mul a1 a2 (norm_nonneg _) (by norm_num)).trans (by norm_num)
  obtain ⟨w2, g2, e5, k5, l2⟩ := method2_32 hq k3 Fq Fd nq nD kd
  obtain ⟨w3, g3, e6, k6, l3⟩ := method3_32 hq k3 Fq Fd nq nD kd
  have ee : 2 * ‖qval fq‖ * ‖⟪ts⟫⁻¹ • (qval fp - qval fq)‖ = 2 / |⟪ts⟫| * (‖qval fq‖ * ‖qval fp - qval fq‖) := by
    rw [eD]
    ring
  refine ⟨qd, w1, w2, w3, g1, g2, g3, e3, e4, e5, e6, k4, k5, k6, fun i hi => ⟨(l1 i hi).2, ?_, ?_⟩⟩
  · have := (l2 i hi).2
    rwa [part_quotient _ _ _ i hi, ee] at this
  · have := (l3 i hi).2
    rwa [part_quotient _ _ _ i hi, ee] at this

/-- The period of the test. -/
theorem period100 [Literals F] : Period (lit (1 / 100) : F) ∧ |2 / ⟪(lit (1 / 100) : F)⟫ - 200| ≤ 1 / 1000 := by
  obtain ⟨hf, hn⟩ := Literals.lit_near (F := F) (1 / 100) (by norm_num)
  have hb := hn.bound
  have hη := rη_le
  obtain ⟨t, et⟩ : ∃ t, t = ⟪(lit (1 / 100) : F)⟫ := ⟨_, rfl⟩
  rw [← et] at hb
  have h1 : |t - 1 / 100| ≤ 1 / 10 ^ 9 := by
    norm_num at hb hη ⊢
    linarith
  obtain ⟨l, r⟩ := abs_le.mp h1
  have tp : 0 < t := by norm_num at l; linarith
  refine ⟨⟨hf, ?_, ?_⟩, ?_⟩
  · rw [← et, abs_of_pos tp]
    norm_num at l ⊢
    linarith
  · rw [← et, abs_of_pos tp]
    norm_num at r ⊢
    linarith
  · rw [← et, show 2 / t - 200 = 200 * (1 / 100 - t) / t by field_simp; ring, abs_div, abs_mul, abs_of_pos tp,
      div_le_iff₀ tp, abs_sub_comm, abs_of_pos (by norm_num : (0 : ℝ) < 200)]
    norm_num at l h1 ⊢
    linarith

theorem part_smul (c : ℝ) (q : Quaternion ℝ) : ∀ i, i < 3 → part (c • q) i = c * part q i :=
  forall_lt_three.mpr ⟨rfl, rfl, rfl⟩

/-- C132: what the test simulates, in binary32, for every sequence of draws without `u64::MAX`: the rate of each of the
three steps is that of `PI / 32` about `y` in 1/100 s, up to 1/4 rad/s, and the fields are the global ones seen from the
attitude `(n + 1) PI / 32` about `y`, up to 1/500 of their magnitude. -/
theorem C132_test [Trig F] [Acos F] [Literals F] {d : Nat → Nat} (hd : ∀ k, d k < 2 ^ 64 - 1) (ha : VecIs va 4 fa)
    (hm : VecIs vm 4 fm) (Fa : ∀ i, i < 4 → Finite (fa i)) (Fm : ∀ i, i < 4 → Finite (fm i)) (na : ‖qval fa‖ ≤ 2 ^ 40)
    (nm : ‖qval fm‖ ≤ 2 ^ 40) :
    ∃ A s G C M, Ahrs.generateRandomAttitudes d 4 = .ok A ∧ simulate A va vm (lit (1 / 100) : F) 3 = .ok s ∧
      MatIs s.gyr 3 3 G ∧ MatIs s.acc 3 3 C ∧ MatIs s.mag 3 3 M ∧ ∀ n i, n < 3 → i < 3 →
        |⟪G i n⟫ - seq3 0 (200 * Real.sin Ahrs.maxStep) 0 i| ≤ 1 / 4 ∧
        |⟪C i n⟫ - part (yQ ((n + 1) * Ahrs.maxStep) * qval fa * star (yQ ((n + 1) * Ahrs.maxStep))) i| ≤
          1 / 500 * ‖qval fa‖ + 1 / 2 ^ 140 ∧
        |⟪M i n⟫ - part (yQ ((n + 1) * Ahrs.maxStep) * qval fm * star (yQ ((n + 1) * Ahrs.maxStep))) i| ≤
          1 / 500 * ‖qval fm‖ + 1 / 2 ^ 140 := by
  obtain ⟨A, x, eA, hx, hh⟩ := Ahrs.C131_values (F := F) hd (show 1 ≤ 4 by omega) le_rfl
  obtain ⟨hτ, h200⟩ := period100 (F := F)
  have dist : ∀ n, n < 4 → ‖(qval fun i => x i n) - yQ ((n + 1) * Ahrs.maxStep)‖ ≤ 48 / 10 ^ 5 := fun n hn => by
    have b2 : (7 / 2 : ℝ) ^ (n + 1) ≤ (7 / 2) ^ 4 := pow_le_pow_right₀ (by norm_num) (by omega)
    have hE : (16 : ℝ) / 10 ^ 7 * ((7 / 2) ^ (n + 1) - 1) ≤ 24 / 10 ^ 5 := by norm_num at b2 ⊢; linarith
    have := qval_dist (f := fun i => x i n)
      (G := seq4 (Real.cos ((n + 1) * Ahrs.maxStep)) 0 (Real.sin ((n + 1) * Ahrs.maxStep)) 0) (a := 0)
      (b := 24 / 10 ^ 5) le_rfl (by norm_num) fun i hi => by
        rw [zero_mul, zero_add]
        exact (hh n hn i hi).2.trans hE
    refine this.trans ?_
    norm_num
  have len : ∀ n, n < 4 → ‖qval fun i => x i n‖ ≤ 1 + 48 / 10 ^ 5 := fun n hn => by
    have := norm_add_le (yQ ((n + 1) * Ahrs.maxStep)) ((qval fun i => x i n) - yQ ((n + 1) * Ahrs.maxStep))
    rw [add_sub_cancel, yQ_norm] at this
    linarith [dist n hn]
  obtain ⟨s, G, C, M, e, hG, hC, hM, key⟩ := C132_sensors (k := 3) hx (by omega)
    (fun i j hi hj => (hh j hj i hi).1) (fun j hj => (len j hj).trans (by norm_num)) hτ ha hm Fa Fm na nm
  have field : ∀ (g : Quaternion ℝ) {c : ℝ} {n i : Nat}, n < 3 → i < 3 →
      |c - part ((qval fun i => x i n) * g * star (qval fun i => x i n)) i| ≤
        49 / 2 ^ 24 * (‖qval fun i => x i n‖ ^ 2 * ‖g‖) + 1 / 2 ^ 140 →
      |c - part (yQ ((n + 1) * Ahrs.maxStep) * g * star (yQ ((n + 1) * Ahrs.maxStep))) i| ≤
        1 / 500 * ‖g‖ + 1 / 2 ^ 140 := fun g c n i hn hi hc => by
    have d0 := dist n (by omega)
    have l0 := len n (by omega)
    have y1 := yQ_norm ((n + 1) * Ahrs.maxStep)
    generalize (qval fun i => x i n) = q at *
    generalize yQ ((n + 1) * Ahrs.maxStep) = y at *
    have e : q * g * star q - y * g * star y = (q - y) * g * star q + y * g * star (q - y) := by
      rw [star_sub, mul_sub, sub_mul, sub_mul]
      abel
    have t : |part (q * g * star q) i - part (y * g * star y) i| ≤ 97 / 10 ^ 5 * ‖g‖ := by
      rw [← part_sub _ _ i hi, e]
      refine (part_le _ i hi).trans ((norm_add_le _ _).trans ?_)
      rw [norm_mul, norm_mul, norm_mul, norm_mul, norm_star, norm_star, y1]
      have g0 := norm_nonneg g
      have t1 : ‖q - y‖ * ‖g‖ * ‖q‖ ≤ 48 / 10 ^ 5 * ‖g‖ * (1 + 48 / 10 ^ 5) := by gcongr
      have t2 : 1 * ‖g‖ * ‖q - y‖ ≤ 1 * ‖g‖ * (48 / 10 ^ 5) := by gcongr
      norm_num at t1 t2 ⊢
      linarith
    refine (dist_trans hc t).trans ?_
    have t3 : ‖q‖ ^ 2 * ‖g‖ ≤ (1 + 48 / 10 ^ 5) ^ 2 * ‖g‖ := by gcongr
    have g0 := norm_nonneg g
    norm_num at t3 ⊢
    linarith
  refine ⟨A, s, G, C, M, eA, e, hG, hC, hM, fun n i hn hi => ?_⟩
  obtain ⟨q, p, eq, ep, kk⟩ := key n hn
  obtain ⟨-, -, -, k1, k2, k3⟩ := kk i hi
  refine ⟨?_, field _ hn hi (by rw [← eq]; exact k2), field _ hn hi (by rw [← eq]; exact k3)⟩
  have d0 := dist n (by omega)
  have d1 := dist (n + 1) (by omega)
  have l0 := len n (by omega)
  have l1 := len (n + 1) (by omega)
  rw [← eq] at d0 l0
  rw [← ep] at d1 l1
  have ey : star (yQ ((n + 1) * Ahrs.maxStep)) * yQ (((n + 1 : ℕ) + 1) * Ahrs.maxStep) = yQ Ahrs.maxStep := by
    rw [yQ_star, yQ_mul]
    congr 1
    push_cast
    ring
  have y0 := yQ_norm ((n + 1) * Ahrs.maxStep)
  generalize yQ ((n + 1) * Ahrs.maxStep) = a at *
  generalize yQ (((n + 1 : ℕ) + 1) * Ahrs.maxStep) = b at *
  have e1 : star q * p - yQ Ahrs.maxStep = star (q - a) * p + star a * (p - b) := by
    rw [← ey, star_sub, sub_mul, mul_sub]
    abel
  have t : |part (star q * p) i - part (yQ Ahrs.maxStep) i| ≤ 97 / 10 ^ 5 := by
    rw [← part_sub _ _ i hi, e1]
    refine (part_le _ i hi).trans ((norm_add_le _ _).trans ?_)
    rw [norm_mul, norm_mul, norm_star, norm_star, y0]
    have t1 : ‖q - a‖ * ‖p‖ ≤ 48 / 10 ^ 5 * (1 + 48 / 10 ^ 5) := by gcongr
    norm_num at t1 d1 ⊢
    linarith
  have ym : |part (yQ Ahrs.maxStep) i| ≤ 1 := (part_le _ i hi).trans (yQ_norm _).le
  have es : ∀ i, i < 3 → seq3 0 (200 * Real.sin Ahrs.maxStep) 0 i = 200 * part (yQ Ahrs.maxStep) i :=
    forall_lt_three.mpr ⟨(mul_zero _).symm, rfl, (mul_zero _).symm⟩
  rw [es i hi]
  obtain ⟨T, eT⟩ : ∃ T : ℝ, T = 2 / ⟪(lit (1 / 100) : F)⟫ := ⟨_, rfl⟩
  have eT' : 2 / |⟪(lit (1 / 100) : F)⟫| = |T| := by rw [eT, abs_div, abs_of_pos (by norm_num : (0 : ℝ) < 2)]
  rw [eT', ← eT, part_smul _ _ i hi] at k1
  rw [← eT] at h200
  have hT : |T| ≤ 200 + 1 / 1000 := le_of_dist (by norm_num) h200
  have pq : ‖p - q‖ ≤ 201 / 100 := (norm_sub_le _ _).trans (by norm_num at l0 l1 ⊢; linarith)
  have t2 : |T * part (star q * p) i - 200 * part (yQ Ahrs.maxStep) i| ≤ (200 + 1 / 1000) * (97 / 10 ^ 5) + 1 / 1000 * 1 := by
    rw [show T * part (star q * p) i - 200 * part (yQ Ahrs.maxStep) i = T * (part (star q * p) i - part (yQ Ahrs.maxStep) i) +
      (T - 200) * part (yQ Ahrs.maxStep) i by ring]
    refine (abs_add_le _ _).trans ?_
    rw [abs_mul, abs_mul]
    gcongr
  have t3 : |T| * (‖q‖ * ‖p - q‖) ≤ (200 + 1 / 1000) * ((1 + 48 / 10 ^ 5) * (201 / 100)) := by gcongr
  refine (dist_trans k1 t2).trans ?_
  norm_num at t3 ⊢
  linarith

/-- C132: method 1 loses small rotations.  The attitudes differ in the last bit of their second component; their rate
about `x` is `5033165 / 2 ^ 40`, and that is what the second and the third method return, but the first one returns zero. -/
theorem C132_cancel : ∃ v w : Vec F32,
    VecIs v 4 (seq4 (lit (5033165 / 2 ^ 24)) (lit (15938357 / 2 ^ 24)) (lit 0) (lit 0)) ∧
    VecIs w 4 (seq4 (lit (5033165 / 2 ^ 24)) (lit (15938358 / 2 ^ 24)) (lit 0) (lit 0)) ∧
    (do let r ← method1 v w (lit (1 / 128)); r.getElement 0) = .ok (lit 0) ∧
    (do let d ← derivative v w (lit (1 / 128)); let r ← method2 v d; r.getElement 0) = .ok (lit (5033165 / 2 ^ 40)) ∧
    (do let d ← derivative v w (lit (1 / 128)); let r ← method3 v d; r.getElement 0) = .ok (lit (5033165 / 2 ^ 40)) ∧
    ⟪(lit (5033165 / 2 ^ 40) : F32)⟫ = 2 / (1 / 128) * (5033165 / 2 ^ 24 * (1 / 2 ^ 24)) := by
  refine ⟨fvec [5033165 / 2 ^ 24, 15938357 / 2 ^ 24, 0, 0], fvec [5033165 / 2 ^ 24, 15938358 / 2 ^ 24, 0, 0], ?_, ?_, ?_, ?_,
    ?_, ?_⟩
  · exact (fvec_is _ rfl).congr (forall_lt_four.mpr ⟨rfl, rfl, rfl, rfl⟩)
  · exact (fvec_is _ rfl).congr (forall_lt_four.mpr ⟨rfl, rfl, rfl, rfl⟩)
  · decide +kernel
  · decide +kernel
  · decide +kernel
  · rw [val_lit (by decide +kernel)]
    norm_num

/-- The test of the crate, with one source of draws and its own acceleration, in binary32 with accurate elementary
functions. -/
example : ∃ (A : Mat F32S) (va vm : Vec F32S) (s : Sim F32S) (x : F32S),
    Ahrs.generateRandomAttitudes (fun _ => 12345678901234567890) 4 = .ok A ∧
    exec (Vec.zeros 4) (Quat.fillq (lit 0) (lit 0) (lit 0) (lit (-981 / 100))) = .ok va ∧
    exec (Vec.zeros 4) (Quat.fillq (lit 0) (lit 39) (lit 0) (lit (-28))) = .ok vm ∧
    simulate A va vm (lit (1 / 100)) 3 = .ok s ∧ s.gyr.getElement 0 2 = .ok x ∧ |⟪x⟫| ≤ 1 / 4 := by
  have v0 : Finite (lit 0 : F32S) := Rounded.zero_finite
  obtain ⟨f1, -⟩ := Literals.lit_near (F := F32S) (-981 / 100) (by norm_num)
  obtain ⟨f2, -⟩ := Literals.lit_near (F := F32S) 39 (by norm_num)
  obtain ⟨f3, -⟩ := Literals.lit_near (F := F32S) (-28) (by norm_num)
  have h0 := Rounded.zero_val (F := F32S)
  have h1 := (Literals.lit_near (F := F32S) (-981 / 100) (by norm_num)).2.bound
  have h2 : ⟪(lit 39 : F32S)⟫ = 39 := by exact_mod_cast Literals.lit_int (F := F32S) 39 (by norm_num)
  have h3 : ⟪(lit (-28) : F32S)⟫ = -28 := by exact_mod_cast Literals.lit_int (F := F32S) (-28) (by norm_num)
  have hη := rη_le
  have hq : (((-981 / 100 : ℚ) : ℚ) : ℝ) = -981 / 100 := by norm_num
  rw [hq] at h1
  have hb : |⟪(lit (-981 / 100) : F32S)⟫| ≤ 10 := by
    generalize ⟪(lit (-981 / 100) : F32S)⟫ = c at *
    rw [show |(-981 / 100 : ℝ)| = 981 / 100 by rw [abs_of_neg (by norm_num)]; norm_num] at h1
    have := abs_le.mp h1
    norm_num at this hη
    refine abs_le.mpr ⟨?_, ?_⟩ <;> linarith
  obtain ⟨va, ea, ha⟩ := Quat.fillq_ok (F := F32S) (Vec.zeros_is (n := 4) (by omega) (by omega)) v0 v0 v0 f1
  obtain ⟨vm, em, hm⟩ := Quat.fillq_ok (F := F32S) (Vec.zeros_is (n := 4) (by omega) (by omega)) v0 f2 v0 f3
  obtain ⟨A, s, G, C, M, eA, e, hG, -, -, k⟩ := C132_test (F := F32S) (d := fun _ => 12345678901234567890)
    (fun _ => by norm_num) ha hm (forall_lt_four.mpr ⟨v0, v0, v0, f1⟩) (forall_lt_four.mpr ⟨v0, f2, v0, f3⟩)
    (by
      rw [qval, norm_mkQ]
      refine Real.sqrt_le_iff.mpr ⟨by norm_num, ?_⟩
      simp only [seq4, h0]
      have := sq_le_sq' (abs_le.mp hb).1 (abs_le.mp hb).2
      norm_num at this ⊢
      linarith)
    (by
      rw [qval, norm_mkQ]
      refine Real.sqrt_le_iff.mpr ⟨by norm_num, ?_⟩
      simp only [seq4, h0, h2, h3]
      norm_num)
  refine ⟨A, va, vm, s, _, eA, exec_ok ea, exec_ok em, e, hG.get 0 2 (by omega) (by omega), ?_⟩
  have := (k 2 0 (by omega) (by omega)).1
  simpa [seq3] using this

end Verif.AhrsTest
