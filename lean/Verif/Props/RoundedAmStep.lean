import Verif.Props.RoundedAm

/-
One update of the AM mode of the AQUA filter in binary32 (C89).
-/

set_option linter.unusedSectionVars false

namespace Verif
open Scalar Finset

variable {F : Type} [Scalar F] [R : Rounded F]

/-! ### Conjugation by nearly equal quaternions -/

theorem conj_dist {Q U G : Quaternion ℝ} {d : ℝ} (hU : ‖U‖ = 1) (h : ‖Q - U‖ ≤ d) :
    ‖star Q * G * Q - star U * G * U‖ ≤ d * (2 + d) * ‖G‖ := by
  have hd : 0 ≤ d := (norm_nonneg _).trans h
  have hQ : ‖Q‖ ≤ 1 + d := by
    have := norm_sub_norm_le Q U
    linarith
  have e : star Q * G * Q - star U * G * U = star (Q - U) * G * Q + star U * G * (Q - U) := by
    rw [star_sub]
    noncomm_ring
  rw [e]
  refine (norm_add_le _ _).trans ?_
  rw [norm_mul, norm_mul, norm_mul, norm_mul, norm_star, norm_star, hU]
  have hG := norm_nonneg G
  calc ‖Q - U‖ * ‖G‖ * ‖Q‖ + 1 * ‖G‖ * ‖Q - U‖ ≤ d * ‖G‖ * (1 + d) + 1 * ‖G‖ * d := by gcongr
    _ = _ := by ring

theorem conj_norm {U G : Quaternion ℝ} (hU : ‖U‖ = 1) : ‖star U * G * U‖ = ‖G‖ := by
  rw [norm_mul, norm_mul, norm_star, hU]
  ring

theorem conj_sub (U G H : Quaternion ℝ) : star U * G * U - star U * H * U = star U * (G - H) * U := by
  noncomm_ring

/-- A nearly unit quaternion and its exact direction. -/
theorem unit_dist {x : Quaternion ℝ} {e : ℝ} (h : |‖x‖ - 1| ≤ e) (hx : x ≠ 0) : ‖x - ‖x‖⁻¹ • x‖ ≤ e := by
  have hp := norm_pos_iff.mpr hx
  have : x - ‖x‖⁻¹ • x = (1 - ‖x‖⁻¹) • x := by rw [sub_smul, one_smul]
  rw [this, norm_smul, Real.norm_eq_abs]
  calc |1 - ‖x‖⁻¹| * ‖x‖ = |(1 - ‖x‖⁻¹) * ‖x‖| := by rw [abs_mul, abs_norm]
    _ = |‖x‖ - 1| := by rw [sub_mul, inv_mul_cancel₀ hp.ne', one_mul]
    _ ≤ e := h

/-- The vector part. -/
noncomputable def vpart (q : Quaternion ℝ) : Quaternion ℝ := mkQ 0 q.imI q.imJ q.imK

theorem vpart_sub (p q : Quaternion ℝ) : vpart p - vpart q = vpart (p - q) := by
  apply Quaternion.ext <;> simp [vpart]

theorem quat_norm_sq (q : Quaternion ℝ) : ‖q‖ ^ 2 = q.re ^ 2 + q.imI ^ 2 + q.imJ ^ 2 + q.imK ^ 2 := by
  rw [quat_norm, Real.sq_sqrt Quaternion.normSq_nonneg, Quaternion.normSq_def']

theorem norm_sq_vpart (q : Quaternion ℝ) : ‖q‖ ^ 2 = q.re ^ 2 + ‖vpart q‖ ^ 2 := by
  rw [quat_norm_sq, quat_norm_sq]
  simp [vpart]
  ring

theorem vpart_le (q : Quaternion ℝ) : ‖vpart q‖ ≤ ‖q‖ := by
  have := norm_sq_vpart q
  exact abs_le_of_sq_le_sq' (by nlinarith [sq_nonneg q.re]) (norm_nonneg _) |>.2

theorem conj_re {U Y : Quaternion ℝ} (hU : ‖U‖ = 1) : (star U * Y * U).re = Y.re := by
  have h := quat_norm_sq U
  rw [hU] at h
  simp only [Quaternion.re_mul, Quaternion.imI_mul, Quaternion.imJ_mul, Quaternion.imK_mul, Quaternion.re_star, Quaternion.imI_star, Quaternion.imJ_star, Quaternion.imK_star]
  linear_combination -Y.re * h

theorem conj_vpart {U Y : Quaternion ℝ} (hU : ‖U‖ = 1) : ‖vpart (star U * Y * U)‖ = ‖vpart Y‖ := by
  have h1 := norm_sq_vpart (star U * Y * U)
  rw [conj_re hU, conj_norm hU, norm_sq_vpart Y] at h1
  have h2 : ‖vpart Y‖ ^ 2 = ‖vpart (star U * Y * U)‖ ^ 2 := by linarith
  exact (pow_left_injective₀ _ _ h2).symm
where
  pow_left_injective₀ : ∀ a b : Quaternion ℝ, ‖a‖ ^ 2 = ‖b‖ ^ 2 → ‖a‖ = ‖b‖ := fun a b h => by
    rw [← abs_norm a, ← abs_norm b]
    exact sq_eq_sq_iff_abs_eq_abs _ _ |>.mp h

/-- A field `m` seen from a frame whose third axis is against `g`: its horizontal part is as long as the vector part
of `g m`. -/
theorem level {P G M : Quaternion ℝ} (hP : ‖P‖ = 1) (hG : star P * G * P = mkQ 0 0 0 (-1)) (hM : M.re = 0) :
    ‖vpart (G * M)‖ = √((star P * M * P).imI * (star P * M * P).imI + (star P * M * P).imJ * (star P * M * P).imJ) := by
  have hu : P * star P = 1 := by
    rw [Quaternion.self_mul_star, Quaternion.normSq_eq_norm_mul_self, hP]
    simp
  have e : star P * (G * M) * P = mkQ 0 0 0 (-1) * (star P * M * P) := by
    rw [← hG]
    calc star P * (G * M) * P = star P * G * 1 * M * P := by noncomm_ring
      _ = star P * G * (P * star P) * M * P := by rw [hu]
      _ = _ := by noncomm_ring
  have hr : (star P * M * P).re = 0 := by rw [conj_re hP, hM]
  rw [← conj_vpart hP, e]
  generalize star P * M * P = X at *
  rw [vpart, norm_mkQ]
  congr 1
  simp [Quaternion.imI_mul, Quaternion.imJ_mul, Quaternion.imK_mul, hr]
  ring

theorem horiz_dist {x y a b : ℝ} {E : ℝ} (hE : √((x - a) * (x - a) + (y - b) * (y - b)) ≤ E) :
    √(a * a + b * b) - E ≤ √(x * x + y * y) ∧ √(x * x + y * y) ≤ √(a * a + b * b) + E := by
  have k : ∀ x y : ℝ, √(x * x + y * y) = ‖mkQ 0 x y 0‖ := fun x y => by
    rw [norm_mkQ]
    congr 1
    ring
  rw [k] at hE
  rw [k, k]
  have e : mkQ 0 x y 0 - mkQ 0 a b 0 = mkQ 0 (x - a) (y - b) 0 := by
    apply Quaternion.ext <;> simp
  have h := abs_le.mp (abs_norm_sub_norm_le (mkQ 0 x y 0) (mkQ 0 a b 0))
  rw [e] at h
  constructor <;> linarith [h.1, h.2]

/-- The final step: a quaternion close to `P M`. -/
theorem align_core {Q P N G M : Quaternion ℝ} {l : Nat → ℝ} {d g e : ℝ} (hP : ‖P‖ = 1) (hN : ‖N‖ = 1)
    (hQ : ‖Q - P * N‖ ≤ d) {H : Quaternion ℝ} (hG : ‖G‖ = 1) (hH : ‖G - H‖ ≤ g) (hb : star P * H * P = mkQ 0 0 0 (-1))
    (hNk : star N * mkQ 0 0 0 (-1) * N = mkQ 0 0 0 (-1)) (hM : ‖M‖ = 1)
    {r z : ℝ} (hl : ‖star P * M * P - mkQ 0 (l 0) (l 1) (l 2)‖ ≤ e)
    (hh : star N * mkQ 0 (l 0) (l 1) (l 2) * N = mkQ 0 r 0 z) :
    ‖star Q * G * Q - mkQ 0 0 0 (-1)‖ ≤ d * (2 + d) + g ∧ ‖star Q * M * Q - mkQ 0 r 0 z‖ ≤ d * (2 + d) + e := by
  have hU : ‖P * N‖ = 1 := by rw [norm_mul, hP, hN, one_mul]
  have c : ∀ X : Quaternion ℝ, star (P * N) * X * (P * N) = star N * (star P * X * P) * N := fun X => by
    rw [star_mul]
    noncomm_ring
  have h1 := conj_dist (G := G) hU hQ
  have h2 := conj_dist (G := M) hU hQ
  rw [hG, mul_one] at h1
  rw [hM, mul_one] at h2
  rw [c] at h1 h2
  constructor
  · have h3 : ‖star N * (star P * G * P) * N - mkQ 0 0 0 (-1)‖ ≤ g := by
      rw [← hNk, conj_sub, conj_norm hN, ← hb, conj_sub, conj_norm hP]
      exact hH
    calc _ = ‖(star Q * G * Q - star N * (star P * G * P) * N) + (star N * (star P * G * P) * N - mkQ 0 0 0 (-1))‖ := by
          rw [sub_add_sub_cancel]
      _ ≤ _ := (norm_add_le _ _).trans (add_le_add h1 h3)
  · have h3 : ‖star N * (star P * M * P) * N - mkQ 0 r 0 z‖ ≤ e := by
      rw [← hh, conj_sub, conj_norm hN]
      exact hl
    calc _ = ‖(star Q * M * Q - star N * (star P * M * P) * N) + (star N * (star P * M * P) * N - mkQ 0 r 0 z)‖ := by
          rw [sub_add_sub_cancel]
      _ ≤ _ := (norm_add_le _ _).trans (add_le_add h2 h3)


/-! ### The steps of the update -/

/-- The direction of a vector whose norm is above the threshold. -/
theorem dir_acc {v : Vec F} {f : Nat → F} (hv : VecIs v 3 f) (hf : ∀ i, i < 3 → Finite (f i))
    (hlo : 10001 / 10 ^ 8 < ‖vval f‖) (hhi : ‖vval f‖ ≤ 2 ^ 63) :
    ∃ n w, v.calculateNorm = .ok n ∧ (n >ᶠ EPSILON) = true ∧ v.normalize = (.ok (), w) ∧
      VecIs w 3 (fun i => f i /ᶠ n) ∧ (∀ i, i < 3 → Finite (f i /ᶠ n)) ∧
      |‖vval fun i => f i /ᶠ n‖ - 1| ≤ 1 / 10 ^ 6 ∧
      ‖(vval fun i => f i /ᶠ n) - ‖vval f‖⁻¹ • vval f‖ ≤ 7 / 4 / 10 ^ 6 := by
  have hN := norm_vval f
  rw [hN] at hlo hhi
  obtain ⟨n, e, h1 | h2 | h3⟩ := norm_cases hv hf
  · exact absurd h1.2 (not_lt.mpr hhi)
  · exact absurd h2.2.2 (not_le.mpr hlo)
  · obtain ⟨w, g, e2, hw, hg, hc⟩ := C77_normalize hv hf
    have hgt : (n >ᶠ EPSILON) = true := by
      exact (R.lt_val eps_fin h3.1).mpr h3.2.1
    obtain ⟨k1, k2⟩ := Vec.run_stores_inv (Vec.normalize_stores hv e) hv e2
    simp only [hgt, if_true] at k1 k2
    have hgi : ∀ i, i < 3 → g i = f i /ᶠ n := fun i hi =>
      Except.ok.inj ((hw.get i hi).symm.trans (k2.get i hi))
    rcases hc with ⟨-, hc | hc⟩ | ⟨c1, c2, -⟩
    · exact absurd hc (not_le.mpr hlo)
    · exact absurd hc (not_lt.mpr hhi)
    · refine ⟨n, w, e, hgt, e2, k2, k1, ?_, ?_⟩
      · rw [norm_vval]
        have : (norm2 3 fun i => ⟪f i /ᶠ n⟫) = norm2 3 fun i => ⟪g i⟫ := by
          unfold norm2
          congr 1
          exact Finset.sum_congr rfl fun i hi => by simp only [hgi i (Finset.mem_range.mp hi)]
        rw [this]
        exact c1
      · rw [hN]
        have c := fun i hi => hgi i hi ▸ c2 i hi
        generalize (norm2 3 fun i => ⟪f i⟫) = N at *
        have e3 : N⁻¹ • vval f = mkQ 0 (⟪f 0⟫ / N) (⟪f 1⟫ / N) (⟪f 2⟫ / N) := by
          apply Quaternion.ext <;> simp [vval, div_eq_inv_mul]
        rw [e3, vval, mkQ_sub_three]
        refine (norm_three (c 0 (by omega)) (c 1 (by omega)) (c 2 (by omega))).trans ?_
        norm_num

namespace Aqua

theorem vector3_run {x y z : F} (hx : Finite x) (hy : Finite y) (hz : Finite z) :
    ∃ v : Vec F, vector3 x y z = .ok v ∧ VecIs v 3 (seq3 x y z) := by
  obtain ⟨v1, v2, v3, e1, e2, e3, h⟩ := AR.vector3 hx hy hz
  refine ⟨v3, ?_, h⟩
  unfold vector3
  simp only [Vec.init_new (F := F) (n := 3) (by omega) (by omega), e1, e2, e3, Res.mapErr_ok, Res.ok_bind]

/-- The preparation of both samples. -/
theorem sensed_acc {p q r u v w : F} (ha : ∀ i, i < 3 → Finite (seq3 p q r i)) (hm : ∀ i, i < 3 → Finite (seq3 u v w i))
    (alo : 10001 / 10 ^ 8 < ‖vval (seq3 p q r)‖) (ahi : ‖vval (seq3 p q r)‖ ≤ 2 ^ 63)
    (mlo : 10001 / 10 ^ 8 < ‖vval (seq3 u v w)‖) (mhi : ‖vval (seq3 u v w)‖ ≤ 2 ^ 63) :
    ∃ n n' va vm, sensed p q r u v w =
        .ok (va, (p /ᶠ n, q /ᶠ n, r /ᶠ n), vm, Vec.zeros 4, Vec.zeros 4, Mat.zeros 3 1) ∧
      VecIs va 3 (seq3 p q r) ∧ (∀ i, i < 3 → Finite (seq3 p q r i /ᶠ n)) ∧
      |‖vval fun i => seq3 p q r i /ᶠ n‖ - 1| ≤ 1 / 10 ^ 6 ∧
      ‖(vval fun i => seq3 p q r i /ᶠ n) - ‖vval (seq3 p q r)‖⁻¹ • vval (seq3 p q r)‖ ≤ 7 / 4 / 10 ^ 6 ∧
      VecIs vm 3 (fun i => seq3 u v w i /ᶠ n') ∧
      (∀ i, i < 3 → Finite (seq3 u v w i /ᶠ n')) ∧
      |‖vval fun i => seq3 u v w i /ᶠ n'‖ - 1| ≤ 1 / 10 ^ 6 ∧
      ‖(vval fun i => seq3 u v w i /ᶠ n') - ‖vval (seq3 u v w)‖⁻¹ • vval (seq3 u v w)‖ ≤ 7 / 4 / 10 ^ 6 := by
  obtain ⟨a0, a1, a2⟩ := forall_lt_three.mp ha
  obtain ⟨m0, m1, m2⟩ := forall_lt_three.mp hm
  obtain ⟨va, e1, h1⟩ := vector3_run a0 a1 a2
  obtain ⟨vb, e2, h2⟩ := vector3_run m0 m1 m2
  obtain ⟨n, -, k1, k2, -, -, k5, k6, k7⟩ := dir_acc h1 ha alo ahi
  obtain ⟨n', vm, -, -, l3, l4, l5, l6, l7⟩ := dir_acc h2 hm mlo mhi
  refine ⟨n, n', va, vm, ?_, h1, k5, k6, k7, l4, l5, l6, l7⟩
  have h10 : va.getElement 0 = .ok p := h1.get 0 (by omega)
  have h11 : va.getElement 1 = .ok q := h1.get 1 (by omega)
  have h12 : va.getElement 2 = .ok r := h1.get 2 (by omega)
  have e1' : vector3 p q r = .ok va := e1
  have e2' : vector3 u v w = .ok vb := e2
  unfold sensed
  simp only [e1', e2', exec_ok l3, k1, k2, if_true, Res.mapErr_ok, Res.ok_bind, h10, h11, h12,
    Vec.init_new (F := F) (n := 4) (by omega) (by omega),
    Mat.init_new (F := F) (r := 3) (c := 1) (by omega) (by omega) (by omega) (by omega)]

/-- A vector seen from the frame of a nearly unit quaternion. -/
theorem toGlobal_acc {T : Mat F} {F0 : Nat → Nat → F} {a v : Vec F} {f g : Nat → F} {e : ℝ} (hT : MatIs T 3 1 F0)
    (ha : VecIs a 4 f) (hf : ∀ i, i < 4 → Finite (f i)) (hn : |‖qval f‖ - 1| ≤ e) (he : e ≤ 1 / 10 ^ 5)
    (hv : VecIs v 3 g) (hg : ∀ i, i < 3 → Finite (g i)) (hV : ‖vval g‖ ≤ 2 ^ 100) :
    ∃ T' w h, toGlobal T a v = .ok (T', w) ∧ (∃ F1, MatIs T' 3 1 F1) ∧ VecIs w 3 h ∧ (∀ i, i < 3 → Finite (h i)) ∧
      ‖vval h - star (qval f) * vval g * qval f‖ ≤ (5 / 10 ^ 6 + 20001 / 10000 * e) * ‖vval g‖ + 1 / 2 ^ 140 := by
  have hn5 : |‖qval f‖ - 1| ≤ 1 / 10 ^ 5 := hn.trans he
  obtain ⟨n1, n2⟩ := abs_le.mp hn5
  have hn2 : ‖qval f‖ ^ 2 ≤ 100003 / 100000 := by nlinarith [norm_nonneg (qval f)]
  obtain ⟨m, D, e1, hm, hD⟩ := C88_dcm ha hf (by norm_num at n2 ⊢; linarith)
  have hd : ∀ i j, i < 3 → j < 3 → |⟪D i j⟫ - dcmOf (qval f) i j| ≤ 181 / 10 / 2 ^ 24 := fun i j hi hj =>
    (hD i j hi hj).2.trans (by norm_num; linarith)
  obtain ⟨m', e2, h2⟩ := Mat.exec_transpose hm fun i j hi hj => (hD i j hi hj).1
  rw [norm_vval] at hV
  have hrow := fun i (hi : i < 3) => row3_acc (a := fun j => D j i) (v := g) (d := fun j => dcmOf (qval f) j i)
    (fun j hj => (hD j i hj hi).1) hg
    (fun j hj => dcmOf_le hn5 hj hi) (fun j hj => hd j i hj hi) (by norm_num) le_rfl (hV.trans (by norm_num))
  obtain ⟨c, e3, h3⟩ := Vec.convertToMatrix_ok hv hg
  have e4 := Mat.mul_ok h2 h3 hT fun i j l hi hj hl => (hrow i hi).1 (l + 1) hl
  have h4 : MatIs (T.overwrite (3 * 1) fun i j => sumUp 3 (Mat.cellTerm (fun i j => D j i) (fun i _ => g i) i j)) 3 1
      (fun i _ => sumUp 3 fun j => D j i *ᶠ g j) := hT.overwrite _
  obtain ⟨w, e5, h5⟩ := Mat.colToVector_ok h4 (show 0 < 1 by omega) fun i hi => (hrow i hi).1 3 le_rfl
  refine ⟨(T.overwrite (3 * 1) fun i j => sumUp 3 (Mat.cellTerm (fun i j => D j i) (fun i _ => g i) i j)), w, _, ?_, ⟨_, h4⟩, h5,
    fun i hi => (hrow i hi).1 3 le_rfl, ?_⟩
  · unfold toGlobal
    simp only [e1, e2, e3, exec_ok e4, e5, Res.mapErr_ok, Res.ok_bind]
  · have d1 := dcmOf_any_transpose (qval f) ⟪g 0⟫ ⟪g 1⟫ ⟪g 2⟫
    have d2 := defect_le hn he ⟪g 0⟫ ⟪g 1⟫ ⟪g 2⟫
    obtain ⟨r0, r1, r2⟩ := forall_lt_three.mp fun i (hi : i < 3) => (hrow i hi).2
    have n3 := norm_three r0 r1 r2
    rw [← norm_vval] at n3
    have hη' : rη = 1 / 2 ^ 150 := rfl
    rw [show vval g = mkQ 0 ⟪g 0⟫ ⟪g 1⟫ ⟪g 2⟫ from rfl] at n3 ⊢
    have e5 := mkQ_sub_three ⟪sumUp 3 fun j => D j 0 *ᶠ g j⟫ ⟪sumUp 3 fun j => D j 1 *ᶠ g j⟫ ⟪sumUp 3 fun j => D j 2 *ᶠ g j⟫
      (dcmOf (qval f) 0 0 * ⟪g 0⟫ + dcmOf (qval f) 1 0 * ⟪g 1⟫ + dcmOf (qval f) 2 0 * ⟪g 2⟫)
      (dcmOf (qval f) 0 1 * ⟪g 0⟫ + dcmOf (qval f) 1 1 * ⟪g 1⟫ + dcmOf (qval f) 2 1 * ⟪g 2⟫)
      (dcmOf (qval f) 0 2 * ⟪g 0⟫ + dcmOf (qval f) 1 2 * ⟪g 1⟫ + dcmOf (qval f) 2 2 * ⟪g 2⟫)
    rw [← e5, d1] at n3
    have n4 := norm_add_le (mkQ 0 ⟪sumUp 3 fun j => D j 0 *ᶠ g j⟫ ⟪sumUp 3 fun j => D j 1 *ᶠ g j⟫ ⟪sumUp 3 fun j => D j 2 *ᶠ g j⟫ -
      (star (qval f) * mkQ 0 ⟪g 0⟫ ⟪g 1⟫ ⟪g 2⟫ * qval f + (1 - ‖qval f‖ ^ 2) • mkQ 0 0 ⟪g 1⟫ ⟪g 2⟫))
      ((1 - ‖qval f‖ ^ 2) • mkQ 0 0 ⟪g 1⟫ ⟪g 2⟫)
    rw [sub_add_eq_sub_sub, sub_add_cancel] at n4
    have h0 := norm_nonneg (mkQ 0 ⟪g 0⟫ ⟪g 1⟫ ⟪g 2⟫)
    refine le_trans n4 ?_
    rw [sub_add_eq_sub_sub] at n3
    rw [hη'] at n3
    norm_num at n3 d2 ⊢
    linarith


theorem abs_im_le (q : Quaternion ℝ) : |q.imI| ≤ ‖q‖ ∧ |q.imJ| ≤ ‖q‖ ∧ |q.imK| ≤ ‖q‖ := by
  have h := quat_norm_sq q
  have h0 := norm_nonneg q
  refine ⟨abs_le_of_sq_le_sq ?_ h0, abs_le_of_sq_le_sq ?_ h0, abs_le_of_sq_le_sq ?_ h0⟩ <;>
    nlinarith [sq_nonneg q.re, sq_nonneg q.imI, sq_nonneg q.imJ, sq_nonneg q.imK]

theorem magQ_spec' {x y : ℝ} (h : 0 < √(x * x + y * y)) (z : ℝ) :
    ‖if 0 ≤ x then magPos x y else magNeg x y‖ = 1 ∧
    star (if 0 ≤ x then magPos x y else magNeg x y) * mkQ 0 x y z * (if 0 ≤ x then magPos x y else magNeg x y) =
      mkQ 0 √(x * x + y * y) 0 z := by
  split
  · obtain ⟨h1, h2⟩ := magPos_spec (x := x) (y := y) (by linarith) z
    exact ⟨by rw [quat_norm, h1, Real.sqrt_one], h2⟩
  · obtain ⟨h1, h2⟩ := magNeg_spec (x := x) (y := y) (by linarith) z
    exact ⟨by rw [quat_norm, h1, Real.sqrt_one], h2⟩

theorem magQ_axis {x y : ℝ} (h : 0 < √(x * x + y * y)) :
    star (if 0 ≤ x then magPos x y else magNeg x y) * mkQ 0 0 0 (-1) * (if 0 ≤ x then magPos x y else magNeg x y) =
      mkQ 0 0 0 (-1) := by
  have h0 := (magQ_spec' h 0).2
  have h1 := (magQ_spec' h (-1)).2
  have e : mkQ 0 0 0 (-1) = mkQ 0 x y (-1) - mkQ 0 x y 0 := by
    apply Quaternion.ext <;> simp
  rw [e, ← conj_sub, h0, h1]
  apply Quaternion.ext <;> simp

/-- Both partial quaternions of an update. -/
theorem amBoth_acc {p q r u v w : F} (ha : ∀ i, i < 3 → Finite (seq3 p q r i)) (hm : ∀ i, i < 3 → Finite (seq3 u v w i))
    (alo : 10001 / 10 ^ 8 < ‖vval (seq3 p q r)‖) (ahi : ‖vval (seq3 p q r)‖ ≤ 2 ^ 63)
    (mlo : 10001 / 10 ^ 8 < ‖vval (seq3 u v w)‖) (mhi : ‖vval (seq3 u v w)‖ ≤ 2 ^ 63)
    {G M : Quaternion ℝ} (hG : G = ‖vval (seq3 p q r)‖⁻¹ • vval (seq3 p q r))
    (hM : M = ‖vval (seq3 u v w)‖⁻¹ • vval (seq3 u v w)) (hs : 1 / 10 ^ 4 ≤ ‖vpart (G * M)‖) :
    ∃ a b fa fb, ∃ P N H : Quaternion ℝ, ∃ l : Nat → ℝ, ∃ x : ℝ,
      amBoth p q r u v w = .ok (a, b) ∧ VecIs a 4 fa ∧ VecIs b 4 fb ∧ (∀ i, i < 4 → Finite (fa i)) ∧
      (∀ i, i < 4 → Finite (fb i)) ∧ ‖qval fa - P‖ ≤ 282 / 10 ^ 8 ∧ ‖qval fb - N‖ ≤ 108 / 10 ^ 8 ∧ ‖P‖ = 1 ∧ ‖N‖ = 1 ∧
      star P * H * P = mkQ 0 0 0 (-1) ∧ star N * mkQ 0 0 0 (-1) * N = mkQ 0 0 0 (-1) ∧ ‖G - H‖ ≤ 275 / 10 ^ 8 ∧
      ‖star P * M * P - mkQ 0 (l 0) (l 1) (l 2)‖ ≤ 185 / 10 ^ 7 ∧
      star N * mkQ 0 (l 0) (l 1) (l 2) * N = mkQ 0 x 0 (l 2) ∧ 0 < x := by
  obtain ⟨n, n', va, vm, e1, -, hd, dn, dg, hvm, hm', mn, dm⟩ := sensed_acc ha hm alo ahi mlo mhi
  rw [← hG] at dg
  rw [← hM] at dm
  have hGn : ‖G‖ = 1 := by
    rw [hG, norm_smul, norm_inv, norm_norm, inv_mul_cancel₀ (by linarith)]
  have hMn : ‖M‖ = 1 := by
    rw [hM, norm_smul, norm_inv, norm_norm, inv_mul_cancel₀ (by linarith)]
  have hM0 : M.re = 0 := by rw [hM]; simp [vval]
  -- the direction of the acceleration
  generalize hh : (fun i => seq3 p q r i /ᶠ n) = h at *
  generalize hk : (fun i => seq3 u v w i /ᶠ n') = k at *
  have hx : p /ᶠ n = h 0 := by rw [← hh]; rfl
  have hy : q /ᶠ n = h 1 := by rw [← hh]; rfl
  have hz : r /ᶠ n = h 2 := by rw [← hh]; rfl
  have hfin : ∀ i, i < 3 → Finite (h i) := fun i hi => by rw [← hh]; exact hd i hi
  have kfin : ∀ i, i < 3 → Finite (k i) := fun i hi => by rw [← hk]; exact hm' i hi
  rw [hx, hy, hz] at e1
  obtain ⟨f0, f1, f2⟩ := forall_lt_three.mp hfin
  obtain ⟨dn1, dn2⟩ := abs_le.mp dn
  obtain ⟨mn1, mn2⟩ := abs_le.mp mn
  norm_num at dn1 dn2 mn1 mn2
  have hpos : 0 < ‖vval h‖ := by linarith
  have hne : vval h ≠ 0 := norm_pos_iff.mp hpos
  have ud := unit_dist dn hne
  generalize hg : (fun i : Fin 3 => ‖vval h‖⁻¹ * ⟪h i⟫) = g
  have g0 : g 0 = ‖vval h‖⁻¹ * ⟪h 0⟫ := by rw [← hg]; rfl
  have g1 : g 1 = ‖vval h‖⁻¹ * ⟪h 1⟫ := by rw [← hg]; rfl
  have g2 : g 2 = ‖vval h‖⁻¹ * ⟪h 2⟫ := by rw [← hg]; rfl
  have hH : ‖vval h‖⁻¹ • vval h = pureQ g := by
    rw [pureQ, g0, g1, g2]
    apply Quaternion.ext <;> simp [vval]
  have hHn : ‖pureQ g‖ = 1 := by
    rw [← hH, norm_smul, norm_inv, norm_norm, inv_mul_cancel₀ hpos.ne']
  have hg3 : norm3 g = 1 := by
    rw [← hHn, pureQ, norm_mkQ, norm3]
    congr 1
    ring
  rw [hH] at ud
  obtain ⟨u0, u1, u2⟩ := abs_im_le (vval h - pureQ g)
  simp only [vval, pureQ, mkQ_sub_three] at u0 u1 u2
  have ud' : ‖mkQ 0 (⟪h 0⟫ - g 0) (⟪h 1⟫ - g 1) (⟪h 2⟫ - g 2)‖ ≤ 1 / 10 ^ 6 := by
    rw [← mkQ_sub_three]
    exact ud
  obtain ⟨A1, A2⟩ := acc_acc (x := h 0) (y := h 1) (z := h 2) hg3 ⟨f0, u0.trans ud'⟩ ⟨f1, u1.trans ud'⟩ ⟨f2, u2.trans ud'⟩ (by
    rw [g2]
    have := inv_pos.mpr hpos
    constructor
    · intro h; exact mul_neg_of_pos_of_neg this h
    · intro h; by_contra hc; exact absurd h (not_lt.mpr (mul_nonneg this.le (not_lt.mp hc))))
  have hPn : ‖accQ g‖ = 1 := by rw [quat_norm, accQ_normSq g hg3, Real.sqrt_one]
  have hPb := accQ_back g hg3
  have hz4 := Vec.zeros_is (F := F) (n := 4) (by omega) (by omega)
  rcases hq : accQuaternion (h 0) (h 1) (h 2) with ⟨qw, qx, qy, qz⟩
  rw [hq] at A1 A2
  obtain ⟨a, e2, hav⟩ := Quat.fillq_ok hz4 A1.1 A1.2.1 A1.2.2.1 A1.2.2.2
  have afin : ∀ i, i < 4 → Finite (seq4 qw qx qy qz i) := forall_lt_four.mpr A1
  have A2' : ‖qval (seq4 qw qx qy qz) - accQ g‖ ≤ 282 / 10 ^ 8 := A2
  generalize accQ g = P at *
  -- the field
  have an : |‖qval (seq4 qw qx qy qz)‖ - 1| ≤ 282 / 10 ^ 8 := by
    rw [← hPn]
    exact (abs_norm_sub_norm_le _ _).trans A2'
  obtain ⟨T', L, l, e3, -, hL, lfin, ld⟩ := toGlobal_acc (Mat.zeros_is (F := F) (r := 3) (c := 1) (by omega) (by omega) (by omega) (by omega)) hav afin an
    (by norm_num) hvm kfin (by norm_num; linarith)
  have HGd : ‖G - pureQ g‖ ≤ 275 / 10 ^ 8 := by
    have := norm_sub_le_norm_sub_add_norm_sub G (vval h) (pureQ g)
    rw [norm_sub_rev G (vval h)] at this
    norm_num at this dg ud ⊢
    linarith
  have md : ‖star P * M * P - vval l‖ ≤ 185 / 10 ^ 7 := by
    have t1 := conj_dist (G := vval k) hPn A2'
    have t2 : ‖star P * M * P - star P * vval k * P‖ ≤ 7 / 4 / 10 ^ 6 := by
      rw [conj_sub, conj_norm hPn, norm_sub_rev]
      exact dm
    have t3 : 282 / 10 ^ 8 * (2 + 282 / 10 ^ 8) * ‖vval k‖ ≤ 565 / 10 ^ 8 := by
      norm_num
      linarith
    have t4 : (5 / 10 ^ 6 + 20001 / 10000 * (282 / 10 ^ 8)) * ‖vval k‖ + 1 / 2 ^ 140 ≤ 1065 / 10 ^ 8 := by
      norm_num
      linarith
    have e : star P * M * P - vval l = (star P * M * P - star P * vval k * P) -
        (star (qval (seq4 qw qx qy qz)) * vval k * qval (seq4 qw qx qy qz) - star P * vval k * P) -
        (vval l - star (qval (seq4 qw qx qy qz)) * vval k * qval (seq4 qw qx qy qz)) := by abel
    rw [e]
    refine (norm_sub_le _ _).trans ((add_le_add (norm_sub_le _ _) le_rfl).trans ?_)
    norm_num at t1 t2 t3 t4 ld ⊢
    linarith
  -- its horizontal part
  have hlev := level hPn hPb hM0
  have hlow : 972 / 10 ^ 7 ≤ ‖vpart (pureQ g * M)‖ := by
    have t1 : ‖vpart (G * M) - vpart (pureQ g * M)‖ ≤ 275 / 10 ^ 8 := by
      rw [vpart_sub, ← sub_mul]
      refine (vpart_le _).trans ?_
      rw [norm_mul, hMn, mul_one]
      exact HGd
    have t2 := norm_sub_norm_le (vpart (G * M)) (vpart (pureQ g * M))
    norm_num at t1 t2 hs ⊢
    linarith
  have hX : ‖star P * M * P‖ = 1 := by rw [conj_norm hPn, hMn]
  have hup : √((star P * M * P).imI * (star P * M * P).imI + (star P * M * P).imJ * (star P * M * P).imJ) ≤ 1 := by
    rw [← hlev]
    refine (vpart_le _).trans ?_
    rw [norm_mul, hHn, hMn, one_mul]
  rw [hlev] at hlow
  have hhor := horiz_dist (x := ⟪l 0⟫) (y := ⟪l 1⟫) (a := (star P * M * P).imI) (b := (star P * M * P).imJ) (E := 185 / 10 ^ 7) (by
    refine le_trans ?_ md
    rw [quat_norm, Quaternion.normSq_def']
    refine Real.sqrt_le_sqrt ?_
    have q1 : (star P * M * P - vval l).imI = (star P * M * P).imI - ⟪l 0⟫ := rfl
    have q2 : (star P * M * P - vval l).imJ = (star P * M * P).imJ - ⟪l 1⟫ := rfl
    rw [q1, q2]
    nlinarith [sq_nonneg (star P * M * P - vval l).re, sq_nonneg (star P * M * P - vval l).imK])
  obtain ⟨l0, l1, l2⟩ := forall_lt_three.mp lfin
  have hr5 : 1 / 10 ^ 5 ≤ √(⟪l 0⟫ * ⟪l 0⟫ + ⟪l 1⟫ * ⟪l 1⟫) := by
    have : (1 : ℝ) / 10 ^ 5 ≤ 972 / 10 ^ 7 - 185 / 10 ^ 7 := by norm_num
    linarith [hhor.1]
  have hr2 : √(⟪l 0⟫ * ⟪l 0⟫ + ⟪l 1⟫ * ⟪l 1⟫) ≤ 2 := by
    have : (1 : ℝ) + 185 / 10 ^ 7 ≤ 2 := by norm_num
    linarith [hhor.2]
  have hr0 : 0 < √(⟪l 0⟫ * ⟪l 0⟫ + ⟪l 1⟫ * ⟪l 1⟫) := lt_of_lt_of_le (by norm_num) hr5
  obtain ⟨B1, B2⟩ := mag_acc l0 l1 rfl hr5 hr2
  obtain ⟨N1, N2⟩ := magQ_spec' hr0 ⟪l 2⟫
  have N3 := magQ_axis hr0
  have g0' : L.getElement 0 = .ok (l 0) := hL.get 0 (by omega)
  have g1' : L.getElement 1 = .ok (l 1) := hL.get 1 (by omega)
  rcases hb : (if l 0 ≥ᶠ lit 0 then magQuaternionPos (l 0) (l 1) (l 0 *ᶠ l 0 +ᶠ l 1 *ᶠ l 1)
      else magQuaternionNeg (l 0) (l 1) (l 0 *ᶠ l 0 +ᶠ l 1 *ᶠ l 1)) with ⟨bw, bx, by', bz⟩
  rw [hb] at B1 B2
  obtain ⟨b, e4, hbv⟩ := Quat.fillq_ok hz4 B1.1 B1.2.1 B1.2.2.1 B1.2.2.2
  refine ⟨a, b, _, _, P, _, pureQ g, fun i => ⟪l i⟫, _, ?_, hav, hbv, afin, forall_lt_four.mpr B1, A2', B2, hPn, N1, hPb, N3,
    HGd, md, N2, hr0⟩
  unfold amBoth amQuats
  simp only [e1, Res.ok_bind, hq, exec_ok e2, Res.mapErr_ok, e3, g0', g1', hb, exec_ok e4]

end Aqua

section
open Aqua
variable {s : Aqua F} {i : AquaInit F}

/-- The attitude shown is finite and has a property. -/
def Aqua.ShowsF (s : Aqua F) (P : (Nat → F) → Prop) : Prop :=
  ∃ v f, s.getAttitude = .ok v ∧ VecIs v 4 f ∧ (∀ i, i < 4 → Finite (f i)) ∧ P f

/-- An accelerometer configured with `c` reads the sample `x y z` as `p q r`. -/
def Accelerometer.Reads (c : AccelerometerConfig F) (x y z p q r : F) : Prop :=
  ∃ g g', Accelerometer.Reachable g ∧ getConfig g = .ok c ∧ update x y z g = (.ok (), g') ∧
    getX g' = .ok p ∧ getY g' = .ok q ∧ getZ g' = .ok r

/-- A magnetometer configured with `c` reads the sample `x y z` as `p q r`. -/
def Magnetometer.Reads (c : MagnetometerConfig F) (x y z p q r : F) : Prop :=
  ∃ g g', Magnetometer.Reachable g ∧ getConfig g = .ok c ∧ update x y z g = (.ok (), g') ∧
    getX g' = .ok p ∧ getY g' = .ok q ∧ getZ g' = .ok r

open Accelerometer in
theorem Accelerometer.Reads.all {c : AccelerometerConfig F} {x y z p q r : F} (h : Accelerometer.Reads c x y z p q r)
    {g : Accelerometer F} (hg : Accelerometer.Reachable g) (hc : getConfig g = .ok c) :
    ∃ g', update x y z g = (.ok (), g') ∧ getX g' = .ok p ∧ getY g' = .ok q ∧ getZ g' = .ok r := by
  obtain ⟨g0, g0', h1, h2, h3, h4, h5, h6⟩ := h
  have h7 := (C43_acc_iff hg hc).mpr ((C43_acc_iff h1 h2).mp (congrArg Prod.fst h3))
  rcases e : update x y z g with ⟨r1, g'⟩
  rw [e] at h7
  obtain rfl := h7
  obtain ⟨-, k1, k2, k3, -⟩ := C43_acc_formula hg hc e
  obtain ⟨-, l1, l2, l3, -⟩ := C43_acc_formula h1 h2 h3
  exact ⟨g', rfl, k1.trans (l1.symm.trans h4), k2.trans (l2.symm.trans h5), k3.trans (l3.symm.trans h6)⟩

open Magnetometer in
theorem Magnetometer.Reads.all {c : MagnetometerConfig F} {x y z p q r : F} (h : Magnetometer.Reads c x y z p q r)
    {g : Magnetometer F} (hg : Magnetometer.Reachable g) (hc : getConfig g = .ok c) :
    ∃ g', update x y z g = (.ok (), g') ∧ getX g' = .ok p ∧ getY g' = .ok q ∧ getZ g' = .ok r := by
  obtain ⟨g0, g0', h1, h2, h3, h4, h5, h6⟩ := h
  have h7 := (C43_mag_iff hg hc).mpr ((C43_mag_iff h1 h2).mp (congrArg Prod.fst h3))
  rcases e : update x y z g with ⟨r1, g'⟩
  rw [e] at h7
  obtain rfl := h7
  obtain ⟨-, k1, k2, k3, -⟩ := C43_mag_formula hg hc e
  obtain ⟨-, l1, l2, l3, -⟩ := C43_mag_formula h1 h2 h3
  exact ⟨g', rfl, k1.trans (l1.symm.trans h4), k2.trans (l2.symm.trans h5), k3.trans (l3.symm.trans h6)⟩

/-- What a reading of the accelerometer is made of is finite. -/
theorem Accelerometer.Reads.finite {c : AccelerometerConfig F} {x y z p q r : F} (h : Accelerometer.Reads c x y z p q r) :
    Finite p ∧ Finite q ∧ Finite r := by
  obtain ⟨g0, g0', h1, h2, h3, h4, h5, h6⟩ := h
  obtain ⟨-, l1, l2, l3, -⟩ := C43_acc_formula h1 h2 h3
  obtain ⟨-, -, k1, k2, k3⟩ := (C43_acc_iff h1 h2).mp (congrArg Prod.fst h3)
  obtain rfl := Except.ok.inj (l1.symm.trans h4)
  obtain rfl := Except.ok.inj (l2.symm.trans h5)
  obtain rfl := Except.ok.inj (l3.symm.trans h6)
  exact ⟨k1.2.2, k2.2.2, k3.2.2⟩

theorem Magnetometer.Reads.finite {c : MagnetometerConfig F} {x y z p q r : F} (h : Magnetometer.Reads c x y z p q r) :
    Finite p ∧ Finite q ∧ Finite r := by
  obtain ⟨g0, g0', h1, h2, h3, h4, h5, h6⟩ := h
  obtain ⟨-, l1, l2, l3, -⟩ := C43_mag_formula h1 h2 h3
  obtain ⟨-, -, k1, k2, k3⟩ := (C43_mag_iff h1 h2).mp (congrArg Prod.fst h3)
  obtain rfl := Except.ok.inj (l1.symm.trans h4)
  obtain rfl := Except.ok.inj (l2.symm.trans h5)
  obtain rfl := Except.ok.inj (l3.symm.trans h6)
  exact ⟨k1.2.2, k2.2.2, k3.2.2⟩

/-- The vector product of two vectors given as pure quaternions. -/
noncomputable def crossQ (A B : Quaternion ℝ) : Quaternion ℝ :=
  mkQ 0 (A.imJ * B.imK - A.imK * B.imJ) (A.imK * B.imI - A.imI * B.imK) (A.imI * B.imJ - A.imJ * B.imI)

theorem vpart_mul {A B : Quaternion ℝ} (hA : A.re = 0) (hB : B.re = 0) (a b : ℝ) :
    vpart ((a • A) * (b • B)) = (a * b) • crossQ A B := by
  apply Quaternion.ext <;>
    simp [vpart, crossQ, hA, hB, Quaternion.imI_mul, Quaternion.imJ_mul, Quaternion.imK_mul] <;> ring

/-- Storing the product and normalising it. -/
theorem Aqua.finish_acc {a b : Vec F} {fa fb : Nat → F} {P N : Quaternion ℝ} (hat : s.attitude.Holds4)
    (ha : VecIs a 4 fa) (hb : VecIs b 4 fb) (hfa : ∀ i, i < 4 → Finite (fa i)) (hfb : ∀ i, i < 4 → Finite (fb i))
    (hP : ‖P‖ = 1) (hN : ‖N‖ = 1) (dP : ‖qval fa - P‖ ≤ 282 / 10 ^ 8) (dN : ‖qval fb - N‖ ≤ 108 / 10 ^ 8) :
    ∃ v g, finish a b s = (.ok (), { s with attitude := v }) ∧ VecIs v 4 g ∧ (∀ i, i < 4 → Finite (g i)) ∧ NearUnit g ∧
      ‖qval g - P * N‖ ≤ 128 / 10 ^ 7 := by
  have nP : ‖qval fa‖ ≤ 1 + 282 / 10 ^ 8 := by
    have := norm_sub_norm_le (qval fa) P
    linarith
  have nN : ‖qval fb‖ ≤ 1 + 108 / 10 ^ 8 := by
    have := norm_sub_norm_le (qval fb) N
    linarith
  have hprod : ‖qval fa‖ * ‖qval fb‖ ≤ 100001 / 100000 := by
    calc _ ≤ (1 + 282 / 10 ^ 8) * (1 + 108 / 10 ^ 8 : ℝ) := by gcongr
      _ ≤ _ := by norm_num
  obtain ⟨m, h, e1, hm, hh, hd⟩ := C79_mul ha hb hfa hfb (hprod.trans (by norm_num))
  have e1' : exec s.attitude (Quat.mul a b) = .ok m := by
    obtain ⟨f, hat, -⟩ := hat
    rw [C34_agree hat ha hb, e1]
  have hU : ‖P * N‖ = 1 := by rw [norm_mul, hP, hN, one_mul]
  have hx : ‖qval h - P * N‖ ≤ 536 / 10 ^ 8 := by
    have e : qval h - P * N = (qval h - qval fa * qval fb) + (qval fa - P) * qval fb + P * (qval fb - N) := by noncomm_ring
    rw [e]
    refine (norm_add_le _ _).trans ((add_le_add (norm_add_le _ _) le_rfl).trans ?_)
    rw [norm_mul, norm_mul, hP, one_mul]
    have t : ‖qval fa - P‖ * ‖qval fb‖ ≤ 282 / 10 ^ 8 * (1 + 108 / 10 ^ 8) := by gcongr
    norm_num at t hd dN hprod ⊢
    linarith
  have hn := abs_le.mp ((abs_norm_sub_norm_le _ _).trans hx)
  rw [hU] at hn
  obtain ⟨hn1, hn2⟩ := hn
  norm_num at hn1 hn2
  obtain ⟨v, g, e2, hv, hg, hc⟩ := C77_normalize hm hh
  have e3 : exec s.attitude (Quat.mul a b >>= fun _ => Vec.normalize) = .ok v := by
    rw [exec_bind, e1']
    exact exec_ok e2
  refine ⟨v, g, exec_finish e3, hv, hg, ?_⟩
  rw [← norm_qval] at hc
  rcases hc with ⟨-, hc | hc⟩ | ⟨c1, c2, -⟩
  · norm_num at hc
    linarith
  · norm_num at hc
    linarith
  · refine ⟨by unfold NearUnit; rw [norm_qval]; exact c1, ?_⟩
    have t1 : ‖qval g - ‖qval h‖⁻¹ • qval h‖ ≤ 2 * (1 / 10 ^ 6) := by
      generalize ‖qval h‖ = K at *
      refine norm_le_two (e := 1 / 10 ^ 6) ?_ ?_ ?_ ?_
      · simpa [qval, div_eq_inv_mul] using c2 0 (by omega)
      · simpa [qval, div_eq_inv_mul] using c2 1 (by omega)
      · simpa [qval, div_eq_inv_mul] using c2 2 (by omega)
      · simpa [qval, div_eq_inv_mul] using c2 3 (by omega)
    have t2 := normalised_dist (x := qval h) (y := P * N) (norm_pos_iff.mp (by linarith)) (norm_pos_iff.mp (by rw [hU]; norm_num))
    rw [hU, inv_one, one_smul, div_one] at t2
    have t3 := norm_sub_le_norm_sub_add_norm_sub (qval g) (‖qval h‖⁻¹ • qval h) (P * N)
    norm_num at t1 hx ⊢
    linarith

/-- C89: one update in the AM mode in binary32. When the readings `A` of the accelerometer and `M` of the magnetometer
have norms between 1.0001e-4 and `2⁶³` and the sine of the angle between them is at least 1e-4, the update succeeds,
whatever the state before; the attitude is a unit quaternion up to one in a million; it takes the acceleration to
the negative third axis up to 3e-5 of its norm, and the field to the half plane of the first and third axes, on the
side of the first, up to 5e-5 of its norm. -/
theorem C89_align (hs : Started i s) (hmode : i.mode = .AM) {c : AccelerometerConfig F} {d : MagnetometerConfig F}
    (hc : s.getAccelerometerConfig = .ok c) (hd : s.getMagnetometerConfig = .ok d) {gx gy gz : Option F}
    {ax ay az mx my mz p q r u v w : F} (ha : Accelerometer.Reads c ax ay az p q r)
    (hm : Magnetometer.Reads d mx my mz u v w) {A M : Quaternion ℝ} (hA : A = mkQ 0 ⟪p⟫ ⟪q⟫ ⟪r⟫)
    (hM : M = mkQ 0 ⟪u⟫ ⟪v⟫ ⟪w⟫) (alo : 10001 / 10 ^ 8 < ‖A‖) (ahi : ‖A‖ ≤ 2 ^ 63) (mlo : 10001 / 10 ^ 8 < ‖M‖)
    (mhi : ‖M‖ ≤ 2 ^ 63) (hx : ‖A‖ * ‖M‖ / 10 ^ 4 ≤ ‖crossQ A M‖) :
    ∃ s', update gx gy gz ax ay az mx my mz s = (.ok (), s') ∧ ShowsF s' fun f => NearUnit f ∧
      ‖star (qval f) * A * qval f - mkQ 0 0 0 (-‖A‖)‖ ≤ 3 / 10 ^ 5 * ‖A‖ ∧
      ∃ x z, 0 < x ∧ ‖star (qval f) * M * qval f - mkQ 0 x 0 z‖ ≤ 5 / 10 ^ 5 * ‖M‖ := by
  obtain ⟨hr, k⟩ := hs.ready
  obtain ⟨S, e1, a1, a2, a3⟩ := ha.all hr.acc hc
  obtain ⟨T, e2, m1, m2, m3⟩ := hm.all hr.mag hd
  have hA' : A = vval (seq3 p q r) := hA
  have hM' : M = vval (seq3 u v w) := hM
  have pA : 0 < ‖A‖ := lt_trans (by norm_num) alo
  have pM : 0 < ‖M‖ := lt_trans (by norm_num) mlo
  have A0 : A.re = 0 := by rw [hA]; rfl
  have M0 : M.re = 0 := by rw [hM]; rfl
  obtain ⟨a, b, fa, fb, P, N, H, l, x, eb, va, vb, ffa, ffb, dP, dN, nP, nN, hH, hk, dG, dl, hh, hx0⟩ :=
    amBoth_acc (forall_lt_three.mpr ha.finite) (forall_lt_three.mpr hm.finite) (hA' ▸ alo) (hA' ▸ ahi) (hM' ▸ mlo) (hM' ▸ mhi)
      (G := ‖A‖⁻¹ • A) (M := ‖M‖⁻¹ • M) (by rw [hA']) (by rw [hM']) (by
        rw [vpart_mul A0 M0, norm_smul, norm_mul, norm_inv, norm_inv, norm_norm, norm_norm]
        rw [← mul_inv, inv_mul_eq_div, le_div_iff₀ (by positivity)]
        linarith)
  obtain ⟨t, g, ef, hv, hg, hu, dQ⟩ := finish_acc (s := { s with acc := S, mag := T }) hr.attitude va vb ffa ffb nP nN dP dN
  have e : update gx gy gz ax ay az mx my mz s = (.ok (), { s with acc := S, mag := T, attitude := t }) := by
    rw [hr.am_eq (k.mode.trans hmode) e1 e2 a1 a2 a3 m1 m2 m3, eb, Op.liftOk_bind]
    exact ef
  obtain ⟨c1, c2⟩ := align_core nP nN dQ (G := ‖A‖⁻¹ • A) (by rw [norm_smul, norm_inv, norm_norm, inv_mul_cancel₀ pA.ne']) dG hH
    hk (M := ‖M‖⁻¹ • M) (by rw [norm_smul, norm_inv, norm_norm, inv_mul_cancel₀ pM.ne']) dl hh
  obtain ⟨v', e5, h5⟩ := Vec.duplicate_ok hv hg
  refine ⟨_, e, v', g, ?_, h5, hg, hu, ?_, ‖M‖ * x, ‖M‖ * l 2, by positivity, ?_⟩
  · unfold getAttitude
    simp only [hr.initialized, e5]
    rfl
  · have : star (qval g) * A * qval g - mkQ 0 0 0 (-‖A‖) =
        ‖A‖ • (star (qval g) * (‖A‖⁻¹ • A) * qval g - mkQ 0 0 0 (-1)) := by
      rw [smul_sub, mul_smul_comm, smul_mul_assoc, smul_smul, mul_inv_cancel₀ pA.ne', one_smul, mkQ_smul]
      simp
    rw [this, norm_smul, norm_norm, mul_comm]
    refine mul_le_mul_of_nonneg_right (c1.trans ?_) pA.le
    norm_num
  · have : star (qval g) * M * qval g - mkQ 0 (‖M‖ * x) 0 (‖M‖ * l 2) =
        ‖M‖ • (star (qval g) * (‖M‖⁻¹ • M) * qval g - mkQ 0 x 0 (l 2)) := by
      rw [smul_sub, mul_smul_comm, smul_mul_assoc, smul_smul, mul_inv_cancel₀ pM.ne', one_smul, mkQ_smul]
      simp
    rw [this, norm_smul, norm_norm, mul_comm]
    refine mul_le_mul_of_nonneg_right (c2.trans ?_) pM.le
    norm_num

end

/-! ### A concrete case -/

/-- The arguments of an `init` with unit calibration. -/
def Aqua.plainF (mode : AquaMode) : AquaInit F32 where
  mode := mode
  qw := none
  qx := none
  qy := none
  qz := none
  gyrometerConfig := some .default
  accelerometerConfig := .default
  magnetometerConfig := .default
  ts := lit (1 / 100)
  adaptive := false
  alpha := lit (1 / 2)
  beta := lit (1 / 2)
  t1 := lit (1 / 10)
  t2 := lit (1 / 5)
  tAcc := lit (9 / 10)
  tMag := lit (9 / 10)
  g := none
  h := none

/-- The hypotheses of `C89_align` hold for the acceleration (3, 0, -4) and the field (1, 2, 2). -/
example : ∃ s s', Aqua.Started (Aqua.plainF .AM) s ∧
    Aqua.update none none none (lit 3) (lit 0) (lit (-4)) (lit 1) (lit 2) (lit 2) s = (.ok (), s') ∧
    Aqua.ShowsF s' fun f => NearUnit f ∧
      ‖star (qval f) * mkQ 0 3 0 (-4) * qval f - mkQ 0 0 0 (-5)‖ ≤ 15 / 10 ^ 5 ∧
      ∃ x z, 0 < x ∧ ‖star (qval f) * mkQ 0 1 2 2 * qval f - mkQ 0 x 0 z‖ ≤ 15 / 10 ^ 5 := by
  obtain ⟨s0, e0, -⟩ := Aqua.new_fresh (F := F32)
  have h := (C52_iff (a := Aqua.plainF .AM) e0).mpr
    ⟨fun h => (by cases h), by decide +kernel, by decide +kernel, .inl ⟨rfl, rfl, rfl, rfl⟩⟩
  have hR : Aqua.Reachable s0 := ⟨s0, e0, .refl _⟩
  have hi : Aqua.init (Aqua.plainF .AM) s0 = (.ok (), (Aqua.init (Aqua.plainF .AM) s0).2) := Prod.ext h rfl
  have hs : Aqua.Started (Aqua.plainF .AM) (Aqua.init (Aqua.plainF .AM) s0).2 := ⟨s0, _, hR, hi, .refl _⟩
  obtain ⟨-, -, hc, hd⟩ := C52_attitude hR hi
  have hr := hs.ready.1
  generalize (Aqua.init (Aqua.plainF .AM) s0).2 = s at *
  have ra : Accelerometer.Reads (.default : AccelerometerConfig F32) (lit 3) (lit 0) (lit (-4)) (lit 3) (lit 0) (lit (-4)) := by
    have e : Accelerometer.update (lit 3) (lit 0) (lit (-4)) s.acc =
        (.ok (), (Accelerometer.update (lit 3) (lit 0) (lit (-4)) s.acc).2) :=
      Prod.ext ((C43_acc_iff hr.acc hc).mpr (by decide +kernel)) rfl
    obtain ⟨-, k1, k2, k3, -⟩ := C43_acc_formula hr.acc hc e
    exact ⟨s.acc, _, hr.acc, hc, e, k1.trans (by decide +kernel), k2.trans (by decide +kernel), k3.trans (by decide +kernel)⟩
  have rm : Magnetometer.Reads (.default : MagnetometerConfig F32) (lit 1) (lit 2) (lit 2) (lit 1) (lit 2) (lit 2) := by
    have e : Magnetometer.update (lit 1) (lit 2) (lit 2) s.mag =
        (.ok (), (Magnetometer.update (lit 1) (lit 2) (lit 2) s.mag).2) :=
      Prod.ext ((C43_mag_iff hr.mag hd).mpr (by decide +kernel)) rfl
    obtain ⟨-, k1, k2, k3, -⟩ := C43_mag_formula hr.mag hd e
    exact ⟨s.mag, _, hr.mag, hd, e, k1.trans (by decide +kernel), k2.trans (by decide +kernel), k3.trans (by decide +kernel)⟩
  have nA : ‖mkQ (0 : ℝ) 3 0 (-4)‖ = 5 := by
    rw [norm_mkQ, show (0 : ℝ) ^ 2 + 3 ^ 2 + 0 ^ 2 + (-4) ^ 2 = 5 ^ 2 by norm_num, Real.sqrt_sq (by norm_num)]
  have nM : ‖mkQ (0 : ℝ) 1 2 2‖ = 3 := by
    rw [norm_mkQ, show (0 : ℝ) ^ 2 + 1 ^ 2 + 2 ^ 2 + 2 ^ 2 = 3 ^ 2 by norm_num, Real.sqrt_sq (by norm_num)]
  have hx : 1 ≤ ‖crossQ (mkQ 0 3 0 (-4)) (mkQ 0 1 2 2)‖ := by
    rw [crossQ, norm_mkQ]
    refine Real.le_sqrt_of_sq_le ?_
    norm_num
  obtain ⟨s', k1, v, f, k2, k3, k4, k5, k6, x, z, k7, k8⟩ := C89_align hs rfl hc hd ra rm (gx := none) (gy := none) (gz := none)
    (A := mkQ 0 3 0 (-4)) (M := mkQ 0 1 2 2)
    (by
      rw [val_lit (k := 3) (by decide +kernel), val_lit (k := 0) (by decide +kernel), val_lit (k := -4) (by decide +kernel)]
      norm_num)
    (by
      rw [val_lit (k := 1) (by decide +kernel), val_lit (k := 2) (by decide +kernel)]
      norm_num)
    (by rw [nA]; norm_num) (by rw [nA]; norm_num) (by rw [nM]; norm_num) (by rw [nM]; norm_num)
    (by rw [nA, nM]; norm_num at hx ⊢; linarith)
  rw [nA] at k6
  rw [nM] at k8
  refine ⟨s, s', hs, k1, v, f, k2, k3, k4, k5, k6.trans ?_, x, z, k7, k8.trans ?_⟩ <;> norm_num

end Verif
