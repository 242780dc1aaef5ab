import Verif.Props.AhrsTest
import Verif.Props.AquaCases
import Verif.Props.Euler

/-
What the test of `open_ahrs/src/lib.rs` prints, in exact arithmetic (C96).
-/

namespace Verif.AhrsTest
open Scalar Quaternion Ahrs

/-- The quaternion of a rotation about the second axis by `2 a`. -/
noncomputable def yQ (a : ℝ) : Quaternion ℝ := mkQ (Real.cos a) 0 (Real.sin a) 0

@[simp] theorem yQ_re (a : ℝ) : (yQ a).re = Real.cos a := rfl
@[simp] theorem yQ_imI (a : ℝ) : (yQ a).imI = 0 := rfl
@[simp] theorem yQ_imJ (a : ℝ) : (yQ a).imJ = Real.sin a := rfl
@[simp] theorem yQ_imK (a : ℝ) : (yQ a).imK = 0 := rfl

theorem yQ_mul (a b : ℝ) : yQ a * yQ b = yQ (a + b) := by
  unfold yQ
  rw [Real.cos_add, Real.sin_add]
  apply Quaternion.ext <;> simp
  ring

theorem yQ_star (a : ℝ) : star (yQ a) = yQ (-a) := by
  unfold yQ
  rw [Real.cos_neg, Real.sin_neg, mkQ_star]
  simp

theorem yQ_normSq (a : ℝ) : Quaternion.normSq (yQ a) = 1 := by
  rw [yQ, normSq_mkQ]
  nlinarith [Real.sin_sq_add_cos_sq a]

theorem yQ_norm (a : ℝ) : ‖yQ a‖ = 1 := Aqua.norm_one (yQ_normSq a)

/-- A quaternion in the plane of those, with a positive real part. -/
theorem plane {u v : ℝ} (hu : 0 < u) :
    ‖mkQ u 0 v 0‖ = √(u ^ 2 + v ^ 2) ∧ ‖mkQ u 0 v 0‖⁻¹ • mkQ u 0 v 0 = yQ (Real.arctan (v / u)) := by
  have hn : ‖mkQ u 0 v 0‖ = √(u ^ 2 + v ^ 2) := by
    rw [quat_norm, normSq_mkQ]
    congr 1
    ring
  refine ⟨hn, ?_⟩
  have hs : √(1 + (v / u) ^ 2) = √(u ^ 2 + v ^ 2) / u := by
    rw [eq_div_iff hu.ne', ← Real.sqrt_sq hu.le, ← Real.sqrt_mul (by positivity), Real.sqrt_sq hu.le]
    congr 1
    field_simp
  have hp : 0 < √(u ^ 2 + v ^ 2) := Real.sqrt_pos.mpr (by positivity)
  rw [hn, mkQ_smul, yQ, Real.cos_arctan, Real.sin_arctan, hs]
  congr 1
  · field_simp
  · simp
  · field_simp
  · simp

/-- A step with the rate `c` about the second axis, taken in steps of `τ`. -/
theorem turn (a t : ℝ) : ‖yQ a + t • (mkQ 0 0 1 0 * yQ a)‖⁻¹ • (yQ a + t • (mkQ 0 0 1 0 * yQ a)) =
    yQ (a + Real.arctan t) ∧ 1 ≤ ‖yQ a + t • (mkQ 0 0 1 0 * yQ a)‖ := by
  have e : yQ a + t • (mkQ 0 0 1 0 * yQ a) = mkQ 1 0 t 0 * yQ a := by
    unfold yQ
    apply Quaternion.ext <;> simp
    ring
  obtain ⟨h1, h2⟩ := plane (u := 1) (v := t) one_pos
  rw [e, norm_mul, yQ_norm, mul_one, ← smul_mul_assoc, h2, yQ_mul, div_one, add_comm]
  refine ⟨rfl, ?_⟩
  rw [h1]
  exact Real.one_le_sqrt.mpr (by nlinarith [sq_nonneg t])

/-! ### Euler angles -/

theorem euler_y {v : Vec XR} {a : ℝ} (hv : QuatIs v (yQ a)) (h0 : 0 ≤ a) (h1 : a < Real.pi / 4) :
    Quat.convertToEuler v = .ok (.fin 0, .fin (2 * a), .fin 0) := by
  have hc : 0 < Real.cos (2 * a) := Real.cos_pos_of_mem_Ioo ⟨by linarith, by linarith⟩
  have hs := Real.sin_sq_add_cos_sq a
  have c2 : 1 - 2 * (Real.sin a * Real.sin a) = Real.cos (2 * a) := by
    rw [Real.cos_two_mul]
    linear_combination (-2) * hs
  have harg : (Elementary.atan2 (0 : ℝ) (Real.cos (2 * a))) = 0 := by
    show Complex.arg ⟨Real.cos (2 * a), 0⟩ = 0
    exact Complex.arg_ofReal_of_nonneg hc.le
  have hasin : (Elementary.asin (Real.sin (2 * a)) : ℝ) = 2 * a :=
    Real.arcsin_sin (by linarith [Real.pi_pos]) (by linarith)
  unfold Quat.convertToEuler
  have l1 : (lit 1 : XR) = .fin 1 := Ext.lit_one
  have l2 : (lit 2 : XR) = .fin 2 := lit_two
  simp only [Quat.getQw_eq hv, Quat.getQx_eq hv, Quat.getQy_eq hv, Quat.getQz_eq hv, Res.ok_bind,
    l1, l2, Ext.mul_fin, Ext.add_fin, Ext.sub_fin, Ext.atan2_fin, yQ_re, yQ_imI, yQ_imJ, yQ_imK, mul_zero, zero_mul, add_zero, zero_add, sub_zero, c2, harg]
  rw [show 2 * (Real.cos a * Real.sin a) = Real.sin (2 * a) by rw [Real.sin_two_mul]; ring,
    Ext.asin_fin ⟨Real.neg_one_le_sin _, Real.sin_le_one _⟩, hasin]

/-- Column `n` holds three numbers. -/
def Col3 (m : Mat XR) (n : Nat) (x y z : ℝ) : Prop := ∀ i, i < 3 → m.getElement i n = .ok (.fin (seq3 x y z i))

theorem eulerTable_ok {m : Mat XR} {k : Nat} {f : Nat → ℝ}
    (hm : MatIs m 4 k (fun i n => .fin (seq4 (Real.cos (f n)) 0 (Real.sin (f n)) 0 i)))
    (hf : ∀ n, n < k → 0 ≤ f n ∧ f n < Real.pi / 4) :
    ∃ r, eulerTable m k = .ok r ∧ ∀ n, n < k → Col3 r n 0 (2 * f n * (572958 / 10000)) 0 := by
  have hk1 := hm.cpos
  have hk4 := hm.cle
  obtain ⟨r, e, h⟩ := foldRange_inv (ε := LinalgError) (fun n r => do
      let q ← m.colToVector n
      let (phi, theta, psi) ← Quat.convertToEuler q
      let v ← exec Vec.new (Vec.init 3)
      let v ← exec v (Vec.setElement 0 (phi *ᶠ lit (572958 / 10000)))
      let v ← exec v (Vec.setElement 1 (theta *ᶠ lit (572958 / 10000)))
      let v ← exec v (Vec.setElement 2 (psi *ᶠ lit (572958 / 10000)))
      exec r (Mat.setCol v n))
    (fun n r => ∃ g : Nat → Nat → XR, MatIs r 3 k g ∧
      ∀ j, j < n → ∀ i, i < 3 → g i j = .fin (seq3 0 (2 * f j * (572958 / 10000)) 0 i)) 0 k (by omega) (Mat.zeros 3 k)
    ⟨_, Mat.zeros_is (by omega) (by omega) hk1 hk4, fun j hj => absurd hj (by omega)⟩ (by
      rintro n r - hn ⟨g, hr, hg⟩
      obtain ⟨q, e1, h1⟩ := Mat.colToVector_ok (j := n) hm hn fun _ _ => Ext.finite_fin _
      have hq : QuatIs q (yQ (f n)) := VecIs.congr h1 (forall_lt_four.mpr ⟨rfl, rfl, rfl, rfl⟩)
      have e2 := euler_y hq (hf n hn).1 (hf n hn).2
      obtain ⟨v1, v2, v3, e3, e4, e5, h5⟩ := store3 0 (2 * f n * (572958 / 10000)) 0
      obtain ⟨r', e6, h6⟩ := Mat.setCol_ok hr h5 hn (forall_lt_three.mpr ⟨Ext.finite_fin _, Ext.finite_fin _, Ext.finite_fin _⟩)
      refine ⟨r', ?_, _, h6, fun j hj i hi => ?_⟩
      · have l : (lit (572958 / 10000) : XR) = .fin (572958 / 10000) := by rw [Ext.lit_eq]; norm_num
        rw [e1, Res.ok_bind, e2, Res.ok_bind]
        simp only [l, Ext.mul_fin, zero_mul]
        rw [Vec.init_new (by omega) (by omega), Res.ok_bind, e3, Res.ok_bind, e4, Res.ok_bind, e5, Res.ok_bind, exec_ok e6]
      · by_cases hjn : j = n
        · subst hjn
          rw [if_pos rfl]
          revert i
          exact forall_lt_three.mpr ⟨rfl, rfl, rfl⟩
        · rw [if_neg hjn]
          exact hg j (by omega) i hi)
  obtain ⟨g, hg, hc⟩ := h
  refine ⟨r, ?_, fun n hn i hi => by rw [hg.get i n hi hn, hc n hn i hi]⟩
  unfold eulerTable
  rw [Mat.init_new (by omega) (by omega) hk1 hk4, Res.ok_bind, e]

/-! ### The filters -/

theorem plain_gyr : (GyrometerConfig.default : GyrometerConfig XR) = Aqua.plainG.fin := by
  unfold GyrometerConfig.default Aqua.plainG GyrometerConfig.fin
  simp only [Ext.lit_one, Ext.lit_zero]
  rfl
theorem plain_acc : (AccelerometerConfig.default : AccelerometerConfig XR) = Aqua.plainA.fin := by
  unfold AccelerometerConfig.default Aqua.plainA AccelerometerConfig.fin
  simp only [Ext.lit_one, Ext.lit_zero]
  rfl
theorem plain_mag : (MagnetometerConfig.default : MagnetometerConfig XR) = Aqua.plainM.fin := by
  unfold MagnetometerConfig.default Aqua.plainM MagnetometerConfig.fin
  simp only [Ext.lit_one, Ext.lit_zero]
  rfl

/-- The table of the rotations about the second axis with the half-angles `f`, filled up to column `n`. -/
def YTable (m : Mat XR) (k n : Nat) (f : Nat → ℝ) : Prop :=
  MatIs m 4 k (fun i j => .fin (if j < n then seq4 (Real.cos (f j)) 0 (Real.sin (f j)) 0 i else 0))

theorem YTable.next {m : Mat XR} {k j : Nat} {f : Nat → ℝ} {v : Vec XR} (hm : YTable m k j f)
    (hv : QuatIs v (yQ (f j))) (hj : j < k) : ∃ m', exec m (Mat.setCol v j) = .ok m' ∧ YTable m' k (j + 1) f := by
  obtain ⟨m', e, h⟩ := Mat.setCol_ok hm hv hj (forall_lt_four.mpr ⟨Ext.finite_fin _, Ext.finite_fin _, Ext.finite_fin _, Ext.finite_fin _⟩)
  refine ⟨m', exec_ok e, h.congr fun i n hi _ => ?_⟩
  by_cases hn : n = j
  · subst hn
    rw [if_pos rfl, if_pos (by omega)]
    revert i
    exact forall_lt_four.mpr ⟨rfl, rfl, rfl, rfl⟩
  · have : n < j + 1 ↔ n < j := by omega
    simp only [hn, if_false, this]

/-- The AR filter turning about the second axis. -/
theorem runAr_ok {A G : Mat XR} {k : Nat} {a c τ : ℝ} (hk : 1 ≤ k) (hk4 : k ≤ 4)
    (hA : ∀ i, i < 4 → A.getElement i 0 = .ok (.fin (seq4 (Real.cos a) 0 (Real.sin a) 0 i)))
    (hG : ∀ n, n < k → Col3 G n 0 c 0) (hc : epsilon ℝ < |c|) :
    ∃ R, runAr A G (.fin τ) k = .ok R ∧ YTable R k k fun n => a + (n + 1) * Real.arctan (τ / 2 * c) := by
  obtain ⟨s0, e0, -⟩ := AR.new_fresh (F := XR)
  obtain ⟨i, hi⟩ : ∃ i : ARInit XR, i = ⟨.fin (Real.cos a), .fin 0, .fin (Real.sin a), .fin 0, GyrometerConfig.default,
    .fin τ, .Euler, 3⟩ := ⟨_, rfl⟩
  have hv : (AR.initWith i s0).1 = .ok () := by
    refine (C46_iff e0).mpr ⟨?_, ?_⟩
    · rw [hi, plain_gyr]
      intro a ha
      simp only [GyrometerConfig.fin, Gyrometer.ofParam, GyrometerConfig.params, List.mem_cons,
        List.not_mem_nil, or_false] at ha
      rcases ha with h | h | h | h | h | h | h | h | h | h | h | h <;> rw [h] <;> exact Ext.finite_fin _
    · rw [hi]
      exact ⟨Ext.finite_fin _, Ext.finite_fin _, Ext.finite_fin _, Ext.finite_fin _⟩
  have h' : AR.initWith i s0 = (.ok (), (AR.initWith i s0).2) := by rw [← hv]
  obtain ⟨s1, hs1⟩ : ∃ s1, s1 = (AR.initWith i s0).2 := ⟨_, rfl⟩
  rw [← hs1] at h'
  have hst : AR.Started i s1 := ⟨s0, _, ⟨s0, e0, .refl _⟩, h', .refl _⟩
  have hsh : AR.Shows s1 (yQ a) := by
    obtain ⟨v, ev, hv⟩ := C46_attitude ⟨s0, e0, .refl _⟩ h'
    rw [hi] at hv
    exact ⟨v, ev, hv⟩
  obtain ⟨T, eT, hT⟩ := table_ok (r := 4) (k := k) (by omega) (by omega) hk hk4
  obtain ⟨r, e, -, h2⟩ := foldRange_inv (ε := AhrsError) (fun n (s : AR XR × Mat XR) => do
      let gx ← liftL (G.getElement 0 n)
      let gy ← liftL (G.getElement 1 n)
      let gz ← liftL (G.getElement 2 n)
      let filter ← exec s.1 (AR.update gx gy gz)
      let estimates ← liftL (exec s.2 (Mat.setCol (← filter.getAttitude) n))
      .ok (filter, estimates))
    (fun n s => (AR.Started i s.1 ∧ AR.Shows s.1 (yQ (a + n * Real.arctan (τ / 2 * c)))) ∧
      YTable s.2 k n fun n => a + (n + 1) * Real.arctan (τ / 2 * c)) 0 k (by omega) (s1, T)
    ⟨⟨hst, by simpa using hsh⟩, hT.congr fun _ _ _ _ => by simp⟩ (by
      rintro n ⟨s, M⟩ - hn ⟨⟨k1, k2⟩, k3⟩
      have hr : Aqua.plainG.rate 0 c 0 = c • mkQ 0 0 1 0 := by
        rw [Aqua.plainG_rate, mkQ_smul]
        simp
      obtain ⟨s', e1, k4⟩ := C50_euler (x := 0) (y := c) (z := 0) (d := Aqua.plainG) (τ := τ) k1 (by rw [hi])
        (by rw [hi, plain_gyr]) (by rw [hi]) k2 (yQ_norm _) (by
          rw [hr, norm_smul, Real.norm_eq_abs, quat_norm, normSq_mkQ]
          simpa using hc)
      rw [hr, smul_mul_assoc, smul_smul, (turn _ _).1] at k4
      have hs' := k1.update (.fin 0) (.fin c) (.fin 0)
      rw [e1] at hs'
      obtain ⟨v, e2, k5⟩ := k4
      have e0 : a + n * Real.arctan (τ / 2 * c) + Real.arctan (τ / 2 * c) = a + (n + 1) * Real.arctan (τ / 2 * c) := by ring
      rw [e0] at k5
      obtain ⟨M', e3, k6⟩ := k3.next k5 hn
      refine ⟨(s', M'), ?_, ⟨hs', v, e2, ?_⟩, k6⟩
      · have g0 := hG n hn 0 (by omega)
        have g1 := hG n hn 1 (by omega)
        have g2 := hG n hn 2 (by omega)
        simp only [seq3] at g0 g1 g2
        rw [g0, g1, g2]
        simp only [Res.mapErr_ok, Res.ok_bind]
        rw [exec_ok e1, Res.ok_bind, e2, Res.ok_bind, e3]
        rfl
      · push_cast
        exact k5)
  refine ⟨r.2, ?_, h2⟩
  have a0 := hA 0 (by omega)
  have a1 := hA 1 (by omega)
  have a2 := hA 2 (by omega)
  have a3 := hA 3 (by omega)
  simp only [seq4] at a0 a1 a2 a3
  rw [hi] at h'
  unfold AR.initWith at h'
  unfold runAr
  rw [e0, a0, a1, a2, a3, eT]
  simp only [Res.mapErr_ok, Res.ok_bind]
  rw [exec_ok h', Res.ok_bind, e]
  rfl

/-- A vector in the plane of the first and third axes turned back by `2 b`. -/
theorem unrot_y (b : ℝ) (u : Fin 3 → ℝ) (h : u 1 = 0) :
    Aqua.unrot (yQ b) u 0 = u 0 * Real.cos (2 * b) - u 2 * Real.sin (2 * b) ∧ Aqua.unrot (yQ b) u 1 = 0 ∧
      Aqua.unrot (yQ b) u 2 = u 0 * Real.sin (2 * b) + u 2 * Real.cos (2 * b) := by
  have hs := Real.sin_sq_add_cos_sq b
  rw [Real.cos_two_mul, Real.sin_two_mul]
  refine ⟨?_, ?_, ?_⟩ <;> simp [Aqua.unrot, dcmOf, tbl, h]
  · linear_combination (-u 0) * hs
  · linear_combination (-2) * u 2 * hs

/-- What a sensor turned by `2 θ` about the second axis sees. -/
theorem seen_y (θ p r : ℝ) : yQ θ * mkQ 0 p 0 r * star (yQ θ) =
    mkQ 0 (p * Real.cos (2 * θ) + r * Real.sin (2 * θ)) 0 (-p * Real.sin (2 * θ) + r * Real.cos (2 * θ)) := by
  have hs := Real.sin_sq_add_cos_sq θ
  rw [yQ_star, Real.cos_two_mul, Real.sin_two_mul]
  apply Quaternion.ext <;> simp
  · linear_combination (-p) * hs
  · linear_combination (-r) * hs

theorem arctan_le {x : ℝ} (h : 0 ≤ x) : Real.arctan x ≤ x := by
  have := Real.le_tan (Real.arctan_nonneg.mpr h) (Real.arctan_lt_pi_div_two x)
  rwa [Real.tan_arctan] at this

theorem unit_plane {u v : ℝ} (hu : 1 ≤ u) : Aqua.unitOf (mkQ u 0 v 0) = yQ (Real.arctan (v / u)) := by
  obtain ⟨h1, h2⟩ := plane (v := v) (lt_of_lt_of_le one_pos hu)
  unfold Aqua.unitOf
  rw [if_pos, h2]
  rw [h1]
  refine lt_of_lt_of_le AR.eps_lt_one (Real.one_le_sqrt.mpr ?_)
  nlinarith [sq_nonneg v]

/-- The prediction. -/
theorem pred_y (a c τ : ℝ) : Aqua.predQ (yQ a) (mkQ 0 0 c 0) τ = yQ (a + Real.arctan (τ / 2 * c)) := by
  have e : yQ a + (τ / 2) • (yQ a * mkQ 0 0 c 0) = yQ a + (τ / 2 * c) • (mkQ 0 0 1 0 * yQ a) := by
    apply Quaternion.ext <;> simp <;> ring
  obtain ⟨h1, h2⟩ := turn a (τ / 2 * c)
  unfold Aqua.predQ Aqua.unitOf
  rw [e, if_pos (lt_of_lt_of_le AR.eps_lt_one h2), h1]

/-- The correction by the acceleration. -/
theorem acc_y {a : Fin 3 → ℝ} {ψ θ : ℝ} (h0 : a 0 = -(981 / 100) * Real.sin (2 * θ)) (h1 : a 1 = 0)
    (h2 : a 2 = -(981 / 100) * Real.cos (2 * θ)) (hp : 0 < ψ - θ) (hl : ψ - θ ≤ 1 / 5) :
    ∃ μ, 0 < μ ∧ μ ≤ (ψ - θ) / 10 ∧ Aqua.Inter (1 / 100) (9 / 10) (Aqua.accQ (Aqua.unrot (yQ ψ) a)) (yQ (-μ)) := by
  obtain ⟨g0, g1, g2⟩ := unrot_y ψ a h1
  obtain ⟨κ, hκ⟩ : ∃ κ, κ = ψ - θ := ⟨_, rfl⟩
  rw [← hκ] at hp hl ⊢
  have e0 : Aqua.unrot (yQ ψ) a 0 = 981 / 100 * Real.sin (2 * κ) := by
    rw [g0, h0, h2, show 2 * κ = 2 * ψ - 2 * θ by rw [hκ]; ring, Real.sin_sub]
    ring
  have e2 : Aqua.unrot (yQ ψ) a 2 = -(981 / 100) * Real.cos (2 * κ) := by
    rw [g2, h0, h2, show 2 * κ = 2 * ψ - 2 * θ by rw [hκ]; ring, Real.cos_sub]
    ring
  have hs1 : Real.sin (2 * κ) ≤ 2 * κ := Real.sin_le (by linarith)
  have hs0 : 0 < Real.sin (2 * κ) := Real.sin_pos_of_pos_of_lt_pi (by linarith) (by linarith [Real.pi_gt_three])
  have hc : 9 / 10 ≤ Real.cos (2 * κ) := by
    have := Real.one_sub_sq_div_two_le_cos (x := 2 * κ)
    nlinarith
  obtain ⟨L, hL⟩ : ∃ L, L = √((1 - Aqua.unrot (yQ ψ) a 2) / 2) := ⟨_, rfl⟩
  have hL2 : 2 ≤ L := by
    rw [hL, e2]
    refine Real.le_sqrt_of_sq_le ?_
    nlinarith
  have hQ : Aqua.accQ (Aqua.unrot (yQ ψ) a) = mkQ L 0 (-(981 / 100 * Real.sin (2 * κ)) / (2 * L)) 0 := by
    unfold Aqua.accQ
    rw [if_pos (by rw [e2]; nlinarith), ← hL, g1, e0, zero_div]
  obtain ⟨v, hv⟩ : ∃ v, v = 1 / 100 * (981 / 100 * Real.sin (2 * κ) / (2 * L)) := ⟨_, rfl⟩
  have hLp : 0 < 2 * L := by linarith
  have hv0 : 0 < v := by rw [hv]; positivity
  have hv1 : v ≤ κ / 10 := by
    rw [hv, ← mul_div_assoc, div_le_iff₀ hLp]
    nlinarith
  have hu : 1 ≤ 1 - 1 / 100 + 1 / 100 * L := by linarith
  refine ⟨Real.arctan (v / (1 - 1 / 100 + 1 / 100 * L)), Real.arctan_pos.mpr (by positivity), ?_, Or.inl ⟨?_, ?_⟩⟩
  · refine (arctan_le (by positivity)).trans ((div_le_self hv0.le hu).trans hv1)
  · rw [hQ]
    show 9 / 10 < L
    linarith
  · rw [hQ, Aqua.lerpQ, ← Real.arctan_neg, ← neg_div, ← unit_plane hu]
    congr 1
    rw [hv]
    apply Quaternion.ext <;> simp
    ring

/-- The correction by the field is none. -/
theorem mag_y {m : Fin 3 → ℝ} {b ι : ℝ} {θ : ℝ} (h0 : m 0 = 48 * Real.cos (ι + 2 * θ)) (h1 : m 1 = 0)
    (h2 : m 2 = -(48 * Real.sin (ι + 2 * θ))) (hb : 0 < Real.cos (ι + 2 * θ - 2 * b)) :
    0 < √(Aqua.unrot (yQ b) (Aqua.dir m) 0 * Aqua.unrot (yQ b) (Aqua.dir m) 0 +
      Aqua.unrot (yQ b) (Aqua.dir m) 1 * Aqua.unrot (yQ b) (Aqua.dir m) 1) + Aqua.unrot (yQ b) (Aqua.dir m) 0 ∧
    Aqua.Inter (1 / 100) (9 / 10)
      (Aqua.magPos (Aqua.unrot (yQ b) (Aqua.dir m) 0) (Aqua.unrot (yQ b) (Aqua.dir m) 1)) 1 := by
  have hn : norm3 m = 48 := by
    rw [norm3, h0, h1, h2, show (48 * Real.cos (ι + 2 * θ)) ^ 2 + 0 ^ 2 + (-(48 * Real.sin (ι + 2 * θ))) ^ 2 = 48 ^ 2 by
      linear_combination 48 ^ 2 * Real.sin_sq_add_cos_sq (ι + 2 * θ)]
    exact Real.sqrt_sq (by norm_num)
  have hd : ∀ i, Aqua.dir m i = m i / 48 := fun i => by
    unfold Aqua.dir
    rw [hn, if_pos (by linarith [AR.eps_lt_one])]
  obtain ⟨g0, g1, -⟩ := unrot_y b (Aqua.dir m) (by rw [hd, h1]; norm_num)
  have e0 : Aqua.unrot (yQ b) (Aqua.dir m) 0 = Real.cos (ι + 2 * θ - 2 * b) := by
    rw [g0, hd, hd, h0, h2, Real.cos_sub]
    ring
  rw [g1, e0]
  generalize Real.cos (ι + 2 * θ - 2 * b) = x at hb
  have hr : √(x * x + 0 * 0) = x := by rw [mul_zero, add_zero, Real.sqrt_mul_self hb.le]
  have hq : Aqua.magPos x 0 = 1 := by
    unfold Aqua.magPos
    rw [hr, show x * x + 0 * 0 + x * x = 2 * (x * x + 0 * 0) by ring, div_self (Real.sqrt_pos.mpr (by positivity)).ne',
      zero_div]
    exact mkQ_one
  refine ⟨by rw [hr]; linarith, ?_⟩
  rw [hq]
  refine Or.inl ⟨by norm_num, ?_⟩
  unfold Aqua.lerpQ
  rw [← add_smul, sub_add_cancel, one_smul, Aqua.unitOf_unit norm_one]

theorem step_y {a m : Fin 3 → ℝ} {φ θ c τ ι : ℝ} (h0 : a 0 = -(981 / 100) * Real.sin (2 * θ)) (h1 : a 1 = 0)
    (h2 : a 2 = -(981 / 100) * Real.cos (2 * θ)) (m0 : m 0 = 48 * Real.cos (ι + 2 * θ)) (m1 : m 1 = 0)
    (m2 : m 2 = -(48 * Real.sin (ι + 2 * θ))) (hι : 1 / 2 ≤ ι) (hι' : ι ≤ 1)
    (hp : 0 < φ + Real.arctan (τ / 2 * c) - θ) (hl : φ + Real.arctan (τ / 2 * c) - θ ≤ 1 / 5) :
    ∃ μ, 0 < μ ∧ μ ≤ (φ + Real.arctan (τ / 2 * c) - θ) / 10 ∧
      Aqua.StepTo (yQ φ) (mkQ 0 0 c 0) a m τ (1 / 100) (1 / 100) (9 / 10) (9 / 10) (yQ (-μ)) 1 ∧
      Aqua.unitOf (Aqua.predQ (yQ φ) (mkQ 0 0 c 0) τ * yQ (-μ) * 1) = yQ (φ + Real.arctan (τ / 2 * c) - μ) := by
  obtain ⟨μ, k1, k2, k3⟩ := acc_y h0 h1 h2 hp hl
  have hb : 0 < Real.cos (ι + 2 * θ - 2 * (φ + Real.arctan (τ / 2 * c) - μ)) :=
    Real.cos_pos_of_mem_Ioo ⟨by linarith [Real.pi_gt_three], by linarith [Real.pi_gt_three]⟩
  obtain ⟨j1, j2⟩ := mag_y m0 m1 m2 hb
  have e : Aqua.predQ (yQ φ) (mkQ 0 0 c 0) τ * yQ (-μ) = yQ (φ + Real.arctan (τ / 2 * c) - μ) := by
    rw [pred_y, yQ_mul, sub_eq_add_neg]
  refine ⟨μ, k1, k2, ⟨by rw [pred_y]; exact k3, by rw [e]; exact j1, by rw [e]; exact j2⟩, ?_⟩
  rw [e, mul_one, Aqua.unitOf_unit (yQ_norm _)]

theorem arith {n : Nat} (hn : n < 3) {δ σ p : ℝ} (h0 : 0 < δ) (h0' : δ ≤ 1 / 10) (h1 : 99 / 100 * δ ≤ σ) (h2 : σ ≤ δ)
    (hp : (n + 1) * δ - n * δ / 5 ≤ p) (hp' : p ≤ δ + n * σ) :
    0 < p + σ - (n + 1) * δ ∧ p + σ - (n + 1) * δ ≤ 1 / 5 ∧ ∀ μ, 0 < μ → μ ≤ (p + σ - (n + 1) * δ) / 10 →
      (n + 1 + 1) * δ - (n + 1) * δ / 5 ≤ p + σ - μ ∧ (n + 1) * δ < p + σ - μ ∧ p + σ - μ < δ + (n + 1) * σ := by
  have : (n : ℝ) = 0 ∨ (n : ℝ) = 1 ∨ (n : ℝ) = 2 := by
    have : n = 0 ∨ n = 1 ∨ n = 2 := by omega
    rcases this with rfl | rfl | rfl <;> simp
  rcases this with h | h | h <;> rw [h] at hp hp' ⊢ <;>
    refine ⟨by linarith, by linarith, fun μ k1 k2 => ⟨by linarith, by linarith, by linarith⟩⟩

theorem aquaInit_valid (w x y z τ : ℝ) : (aquaInit (.fin w : XR) (.fin x) (.fin y) (.fin z) (.fin τ)).Valid where
  gyr := fun _ => ⟨_, rfl, by
    rw [plain_gyr]
    intro x hx
    simp only [GyrometerConfig.params, List.mem_cons, List.not_mem_nil, or_false] at hx
    rcases hx with rfl | rfl | rfl | rfl | rfl | rfl | rfl | rfl | rfl | rfl | rfl | rfl <;> exact Ext.finite_fin _⟩
  acc := by
    unfold aquaInit
    rw [plain_acc]
    intro x hx
    simp only [AccelerometerConfig.params, List.mem_cons, List.not_mem_nil, or_false] at hx
    rcases hx with rfl | rfl | rfl | rfl | rfl | rfl | rfl | rfl | rfl | rfl | rfl | rfl <;> exact Ext.finite_fin _
  mag := by
    unfold aquaInit
    rw [plain_mag]
    intro x hx
    simp only [MagnetometerConfig.params, List.mem_cons, List.not_mem_nil, or_false] at hx
    rcases hx with rfl | rfl | rfl | rfl | rfl | rfl | rfl | rfl | rfl | rfl | rfl | rfl <;> exact Ext.finite_fin _
  quat := Or.inr ⟨_, _, _, _, rfl, rfl, rfl, rfl, Ext.finite_fin _, Ext.finite_fin _, Ext.finite_fin _,
    Ext.finite_fin _⟩

theorem aquaInit_fixed (w x y z τ : ℝ) : Aqua.AquaInit.Fixed (aquaInit (.fin w : XR) (.fin x) (.fin y) (.fin z) (.fin τ))
    τ (1 / 100) (1 / 100) (9 / 10) (9 / 10) where
  mode := rfl
  adaptive := rfl
  ts := rfl
  alpha := by show (lit (1 / 100) : XR) = _; rw [Ext.lit_eq]; norm_num
  beta := by show (lit (1 / 100) : XR) = _; rw [Ext.lit_eq]; norm_num
  tAcc := by show (lit (9 / 10) : XR) = _; rw [Ext.lit_eq]; norm_num
  tMag := by show (lit (9 / 10) : XR) = _; rw [Ext.lit_eq]; norm_num
  alpha_range := by norm_num
  beta_range := by norm_num
  tAcc_range := by norm_num
  tMag_range := by norm_num

/-- A filter of the test that shows a rotation about the second axis. -/
structure At (i : AquaInit XR) (s : Aqua XR) (p : ℝ) : Prop where
  started : Aqua.Started i s
  gyr : s.getGyrometerConfig = .ok Aqua.plainG.fin
  acc : s.getAccelerometerConfig = .ok Aqua.plainA.fin
  mag : s.getMagnetometerConfig = .ok Aqua.plainM.fin
  shows : Aqua.Shows s (yQ p)

/-- One update of such a filter. -/
theorem feed_y {i : AquaInit XR} {s : Aqua XR} {p θ c τ ι : ℝ} (h : At i s p)
    (hfix : Aqua.AquaInit.Fixed i τ (1 / 100) (1 / 100) (9 / 10) (9 / 10)) (hι : 1 / 2 ≤ ι) (hι' : ι ≤ 1)
    (hp : 0 < p + Real.arctan (τ / 2 * c) - θ) (hl : p + Real.arctan (τ / 2 * c) - θ ≤ 1 / 5) :
    ∃ s' μ, Aqua.update (some (.fin 0)) (some (.fin c)) (some (.fin 0)) (.fin (-(981 / 100) * Real.sin (2 * θ))) (.fin 0)
        (.fin (-(981 / 100) * Real.cos (2 * θ))) (.fin (48 * Real.cos (ι + 2 * θ))) (.fin 0)
        (.fin (-(48 * Real.sin (ι + 2 * θ)))) s = (.ok (), s') ∧
      At i s' (p + Real.arctan (τ / 2 * c) - μ) ∧ 0 < μ ∧ μ ≤ (p + Real.arctan (τ / 2 * c) - θ) / 10 := by
  obtain ⟨y, hy⟩ : ∃ y : Sample, y = ⟨![0, c, 0], ![-(981 / 100) * Real.sin (2 * θ), 0,
    -(981 / 100) * Real.cos (2 * θ)], ![48 * Real.cos (ι + 2 * θ), 0, -(48 * Real.sin (ι + 2 * θ))]⟩ := ⟨_, rfl⟩
  have y1 : y.rate Aqua.plainG = mkQ 0 0 c 0 := by
    rw [hy]
    exact Aqua.plainG_rate _ _ _
  obtain ⟨μ, j1, j2, j3, j4⟩ := step_y (a := y.acc Aqua.plainA) (m := y.field Aqua.plainM) (φ := p) (θ := θ)
    (c := c) (τ := τ) (ι := ι) (by rw [hy, Sample.acc, Aqua.plainA_correct]; rfl)
    (by rw [hy, Sample.acc, Aqua.plainA_correct]; rfl) (by rw [hy, Sample.acc, Aqua.plainA_correct]; rfl)
    (by rw [hy, Sample.field, Aqua.plainM_correct]; rfl) (by rw [hy, Sample.field, Aqua.plainM_correct]; rfl)
    (by rw [hy, Sample.field, Aqua.plainM_correct]; rfl) hι hι' hp hl
  rw [← y1] at j3 j4
  obtain ⟨s', e1, j5⟩ := Aqua.fixed_ok h.started hfix h.shows h.gyr h.acc h.mag j3
  rw [j4] at j5
  unfold Aqua.feed at e1
  rw [show y.g 0 = 0 by rw [hy]; rfl, show y.g 1 = c by rw [hy]; rfl, show y.g 2 = 0 by rw [hy]; rfl,
    show y.a 0 = -(981 / 100) * Real.sin (2 * θ) by rw [hy]; rfl, show y.a 1 = 0 by rw [hy]; rfl,
    show y.a 2 = -(981 / 100) * Real.cos (2 * θ) by rw [hy]; rfl,
    show y.m 0 = 48 * Real.cos (ι + 2 * θ) by rw [hy]; rfl, show y.m 1 = 0 by rw [hy]; rfl,
    show y.m 2 = -(48 * Real.sin (ι + 2 * θ)) by rw [hy]; rfl] at e1
  obtain ⟨hr, -⟩ := h.started.ready
  have hstep := Aqua.frame_update (some (.fin 0 : XR)) (some (.fin c)) (some (.fin 0)) (.fin (-(981 / 100) * Real.sin (2 * θ)))
    (.fin 0) (.fin (-(981 / 100) * Real.cos (2 * θ))) (.fin (48 * Real.cos (ι + 2 * θ))) (.fin 0)
    (.fin (-(48 * Real.sin (ι + 2 * θ)))) s
  rw [e1] at hstep
  have hst' : Aqua.Started i s' := by
    obtain ⟨u0, u1, l0, l1, l2⟩ := h.started
    have := Aqua.Leads.step (.update (some (.fin 0 : XR)) (some (.fin c)) (some (.fin 0)) (.fin (-(981 / 100) * Real.sin (2 * θ)))
      (.fin 0) (.fin (-(981 / 100) * Real.cos (2 * θ))) (.fin (48 * Real.cos (ι + 2 * θ))) (.fin 0)
      (.fin (-(48 * Real.sin (ι + 2 * θ))))) l2
    rw [Aqua.call, e1] at this
    exact ⟨u0, u1, l0, l1, this⟩
  exact ⟨s', μ, e1, ⟨hst', (hstep.gyr hr.gyr).2.2.trans h.gyr, (hstep.acc hr.acc).2.2.trans h.acc,
    (hstep.mag hr.mag).2.2.trans h.mag, j5⟩, j1, j2⟩

/-- The AQUA filter turning about the second axis. -/
theorem runAqua_ok {A G C M : Mat XR} {k : Nat} {δ c τ ι : ℝ} (hk : 1 ≤ k) (hk3 : k ≤ 3)
    (hA : ∀ i, i < 4 → A.getElement i 0 = .ok (.fin (seq4 (Real.cos δ) 0 (Real.sin δ) 0 i)))
    (hG : ∀ n, n < k → Col3 G n 0 c 0)
    (hC : ∀ n, n < k → Col3 C n (-(981 / 100) * Real.sin (2 * ((n + 1) * δ))) 0 (-(981 / 100) * Real.cos (2 * ((n + 1) * δ))))
    (hM : ∀ n, n < k → Col3 M n (48 * Real.cos (ι + 2 * ((n + 1) * δ))) 0 (-(48 * Real.sin (ι + 2 * ((n + 1) * δ)))))
    (hι : 1 / 2 ≤ ι) (hι' : ι ≤ 1) (h0 : 0 < δ) (h0' : δ ≤ 1 / 10) (h1 : 99 / 100 * δ ≤ Real.arctan (τ / 2 * c))
    (h2 : Real.arctan (τ / 2 * c) ≤ δ) :
    ∃ R f, runAqua A G C M (.fin τ) k = .ok R ∧ YTable R k k f ∧
      ∀ n, n < k → (n + 1) * δ < f n ∧ f n < δ + (n + 1) * Real.arctan (τ / 2 * c) := by
  obtain ⟨σ, hσ⟩ : ∃ σ, σ = Real.arctan (τ / 2 * c) := ⟨_, rfl⟩
  rw [← hσ] at h1 h2 ⊢
  obtain ⟨s0, e0, -⟩ := Aqua.new_fresh (F := XR)
  have hr0 : Aqua.Reachable s0 := ⟨s0, e0, .refl _⟩
  obtain ⟨i, hi⟩ : ∃ i, i = aquaInit (.fin (Real.cos δ) : XR) (.fin 0) (.fin (Real.sin δ)) (.fin 0) (.fin τ) := ⟨_, rfl⟩
  obtain ⟨s1, hs1⟩ : ∃ s1, s1 = (Aqua.init i s0).2 := ⟨_, rfl⟩
  have hin : Aqua.init i s0 = (.ok (), s1) := by
    rw [hs1]
    exact Prod.ext ((C52_iff e0).mpr (by rw [hi]; exact aquaInit_valid _ _ _ _ _)) rfl
  have hfix : Aqua.AquaInit.Fixed i τ (1 / 100) (1 / 100) (9 / 10) (9 / 10) := by rw [hi]; exact aquaInit_fixed _ _ _ _ _
  obtain ⟨⟨v, hv, hv1⟩, hg, ha, hm⟩ := C52_attitude hr0 hin
  have hst : Aqua.Started i s1 := ⟨s0, _, hr0, hin, .refl _⟩
  obtain ⟨cg, hcg, hg⟩ := hg (by rw [hi]; rfl)
  have hg' : s1.getGyrometerConfig = .ok Aqua.plainG.fin := by
    rw [hg, ← plain_gyr]
    rw [hi] at hcg
    rw [← Option.some.inj hcg]
  have ha' : s1.getAccelerometerConfig = .ok Aqua.plainA.fin := by
    rw [ha, ← plain_acc, hi]; rfl
  have hm' : s1.getMagnetometerConfig = .ok Aqua.plainM.fin := by
    rw [hm, ← plain_mag, hi]; rfl
  have hsh : Aqua.Shows s1 (yQ δ) := ⟨v, hv, by rw [hi] at hv1; exact hv1⟩
  obtain ⟨T, eT, hT⟩ := table_ok (r := 4) (k := k) (by omega) (by omega) hk (by omega)
  obtain ⟨r, e, -, f, hf, hfb⟩ := foldRange_inv (ε := AhrsError) (fun n (s : Aqua XR × Mat XR) => do
      let gx ← liftL (G.getElement 0 n)
      let gy ← liftL (G.getElement 1 n)
      let gz ← liftL (G.getElement 2 n)
      let ax ← liftL (C.getElement 0 n)
      let ay ← liftL (C.getElement 1 n)
      let az ← liftL (C.getElement 2 n)
      let mx ← liftL (M.getElement 0 n)
      let my ← liftL (M.getElement 1 n)
      let mz ← liftL (M.getElement 2 n)
      let filter ← exec s.1 (Aqua.update (some gx) (some gy) (some gz) ax ay az mx my mz)
      let estimates ← liftL (exec s.2 (Mat.setCol (← filter.getAttitude) n))
      .ok (filter, estimates))
    (fun n s => (∃ p, At i s.1 p ∧ (n + 1) * δ - n * δ / 5 ≤ p ∧ p ≤ δ + n * σ) ∧
      ∃ f : Nat → ℝ, YTable s.2 k n f ∧ ∀ j, j < n → (j + 1) * δ < f j ∧ f j < δ + (j + 1) * σ) 0 k (by omega) (s1, T)
    ⟨⟨δ, ⟨hst, hg', ha', hm', hsh⟩, by simp, by simp⟩, fun _ => 0, hT.congr fun _ _ _ _ => by simp,
      fun j hj => absurd hj (by omega)⟩ (by
      rintro n ⟨s, T⟩ - hn ⟨⟨p, k1, k6, k7⟩, f, k8, k9⟩
      obtain ⟨a1, a2, a3⟩ := arith (show n < 3 by omega) h0 h0' h1 h2 k6 k7
      rw [hσ] at a1 a2
      obtain ⟨s', μ, e1, k1', j1, j2⟩ := feed_y k1 hfix hι hι' a1 a2
      rw [← hσ] at k1' j2
      obtain ⟨b1, b2, b3⟩ := a3 μ j1 j2
      obtain ⟨v, e2, j6⟩ := k1'.shows
      obtain ⟨f', hf'⟩ : ∃ f' : Nat → ℝ, f' = fun j => if j = n then p + σ - μ else f j := ⟨_, rfl⟩
      have k8' : YTable T k n f' := MatIs.congr k8 fun i j _ _ => by
        by_cases hj : j < n
        · rw [if_pos hj, if_pos hj, hf']
          simp only [show j ≠ n by omega, if_false]
        · rw [if_neg hj, if_neg hj]
      have hfn : f' n = p + σ - μ := by rw [hf']; simp
      rw [← hfn] at j6
      obtain ⟨T', e3, j7⟩ := k8'.next j6 hn
      refine ⟨(s', T'), ?_, ⟨p + σ - μ, k1', by push_cast; exact b1, by push_cast; exact b3.le⟩, f', j7, fun j hj => ?_⟩
      · have g0 := hG n hn 0 (by omega)
        have g1 := hG n hn 1 (by omega)
        have g2 := hG n hn 2 (by omega)
        have c0 := hC n hn 0 (by omega)
        have c1 := hC n hn 1 (by omega)
        have c2 := hC n hn 2 (by omega)
        have m0 := hM n hn 0 (by omega)
        have m1 := hM n hn 1 (by omega)
        have m2 := hM n hn 2 (by omega)
        simp only [seq3] at g0 g1 g2 c0 c1 c2 m0 m1 m2
        rw [g0, g1, g2, c0, c1, c2, m0, m1, m2]
        simp only [Res.mapErr_ok, Res.ok_bind]
        rw [exec_ok e1, Res.ok_bind, e2, Res.ok_bind, e3]
        rfl
      · by_cases hjn : j = n
        · subst hjn
          rw [hfn]
          exact ⟨b2, b3⟩
        · rw [hf']
          simp only [hjn, if_false]
          exact k9 j (by omega))
  refine ⟨r.2, f, ?_, hf, hfb⟩
  have a0 := hA 0 (by omega)
  have a1 := hA 1 (by omega)
  have a2 := hA 2 (by omega)
  have a3 := hA 3 (by omega)
  simp only [seq4] at a0 a1 a2 a3
  rw [hi] at hin
  unfold runAqua
  rw [e0, a0, a1, a2, a3, eT]
  simp only [Res.mapErr_ok, Res.ok_bind]
  rw [exec_ok hin, Res.ok_bind, e]
  rfl

/-! ### C96: the test -/

theorem YTable.euler {R : Mat XR} {k : Nat} {f : Nat → ℝ} (h : YTable R k k f)
    (hf : ∀ n, n < k → 0 ≤ f n ∧ f n < Real.pi / 4) :
    ∃ r, eulerTable R k = .ok r ∧ ∀ n, n < k → Col3 r n 0 (2 * f n * (572958 / 10000)) 0 :=
  eulerTable_ok (f := f) (MatIs.congr h fun i j _ hj => by rw [if_pos hj]) hf

/-- The angle the AR filter turns by per step falls short of the true one. -/
theorem shortfall : 19 / 1000000 < maxStep - Real.arctan (Real.sin maxStep) ∧
    99 / 100 * maxStep ≤ Real.arctan (Real.sin maxStep) := by
  have hp := maxStep_pos
  have hl : maxStep < 491 / 10000 := by unfold maxStep; norm_num
  have hg : 490 / 10000 < maxStep := by unfold maxStep; norm_num
  have hb := Real.sin_bound (x := maxStep) (by rw [abs_of_pos hp]; linarith)
  rw [abs_of_pos hp, abs_le] at hb
  have hs0 : 0 ≤ Real.sin maxStep := (Real.sin_pos_of_pos_of_lt_pi hp (by linarith [Real.pi_gt_three])).le
  have h3 : (490 / 10000) ^ 3 ≤ maxStep ^ 3 := pow_le_pow_left₀ (by norm_num) hg.le 3
  have h3' : maxStep ^ 3 ≤ (491 / 10000) ^ 2 * maxStep := by
    have : maxStep ^ 2 ≤ (491 / 10000) ^ 2 := pow_le_pow_left₀ hp.le hl.le 2
    nlinarith
  have h4 : maxStep ^ 4 ≤ (491 / 10000) ^ 4 := pow_le_pow_left₀ hp.le hl.le 4
  have h4' : maxStep ^ 4 ≤ (491 / 10000) ^ 3 * maxStep := by
    have : maxStep ^ 3 ≤ (491 / 10000) ^ 3 := pow_le_pow_left₀ hp.le hl.le 3
    nlinarith
  constructor
  · have := arctan_le hs0
    nlinarith
  · have hsx : Real.sin maxStep ≤ maxStep := Real.sin_le hp.le
    rw [← Real.arctan_tan (x := 99 / 100 * maxStep) (by linarith [Real.pi_pos]) (by linarith [Real.pi_gt_three])]
    refine Real.arctan_le_arctan_iff.mpr ?_
    have hs1 : 999 / 1000 * maxStep ≤ Real.sin maxStep := by nlinarith
    have hy0 : 0 ≤ 99 / 100 * maxStep := by linarith
    have hc : 99 / 100 ≤ Real.cos (99 / 100 * maxStep) * (999 / 1000) := by
      have := Real.one_sub_sq_div_two_le_cos (x := 99 / 100 * maxStep)
      nlinarith
    have hc0 : 0 < Real.cos (99 / 100 * maxStep) := by linarith
    rw [Real.tan_eq_sin_div_cos, div_le_iff₀ hc0]
    have := Real.sin_le hy0
    nlinarith

/-- The readings. -/
theorem sim_y {A : Mat XR} {va vm : Vec XR} {ι : ℝ}
    (hA : MatIs A 4 4 fun i n => .fin (seq4 (Real.cos ((n + 1) * maxStep)) 0 (Real.sin ((n + 1) * maxStep)) 0 i))
    (h1 : QuatIs va (mkQ 0 0 0 (-981 / 100))) (h2 : QuatIs vm (mkQ 0 (48 * Real.cos ι) 0 (-48 * Real.sin ι))) :
    ∃ s, simulate A va vm (.fin (1 / 100)) 3 = .ok s ∧ (∀ n, n < 3 → Col3 s.gyr n 0 (200 * Real.sin maxStep) 0) ∧
      (∀ n : Nat, n < 3 → Col3 s.acc n (-(981 / 100) * Real.sin (2 * ((n + 1) * maxStep))) 0
        (-(981 / 100) * Real.cos (2 * ((n + 1) * maxStep)))) ∧
      ∀ n : Nat, n < 3 → Col3 s.mag n (48 * Real.cos (ι + 2 * ((n + 1) * maxStep))) 0
        (-(48 * Real.sin (ι + 2 * ((n + 1) * maxStep)))) := by
  obtain ⟨s, eS, hS⟩ := C95_sensors (τ := 1 / 100) (k := 3) hA (by omega) (by norm_num) h1 h2
  have hx : ∀ n : Nat, colQ (fun i n => seq4 (Real.cos ((n + 1) * maxStep)) 0 (Real.sin ((n + 1) * maxStep)) 0 i) n =
      yQ ((n + 1) * maxStep) := fun n => rfl
  simp only [hx] at hS
  have hG : ∀ n, n < 3 → Col3 s.gyr n 0 (200 * Real.sin maxStep) 0 := by
    intro n hn i hi
    have e : yQ (-((n + 1) * maxStep)) * yQ (((n + 1 : ℕ) + 1) * maxStep) = yQ maxStep := by
      rw [yQ_mul, show -((n + 1) * maxStep) + ((n + 1 : ℕ) + 1) * maxStep = maxStep by push_cast; ring]
    rw [(hS n hn).1 i hi, yQ_star, e]
    revert i
    refine forall_lt_three.mpr ⟨?_, ?_, ?_⟩ <;> simp [part, seq3]
    norm_num
  have hC : ∀ n : Nat, n < 3 → Col3 s.acc n (-(981 / 100) * Real.sin (2 * ((n + 1) * maxStep))) 0
      (-(981 / 100) * Real.cos (2 * ((n + 1) * maxStep))) := by
    intro n hn i hi
    rw [(hS n hn).2.1 i hi, seen_y]
    revert i
    refine forall_lt_three.mpr ⟨?_, ?_, ?_⟩ <;> simp [part, seq3] <;> ring
  have hM : ∀ n : Nat, n < 3 → Col3 s.mag n (48 * Real.cos (ι + 2 * ((n + 1) * maxStep))) 0
      (-(48 * Real.sin (ι + 2 * ((n + 1) * maxStep)))) := by
    intro n hn i hi
    rw [(hS n hn).2.2 i hi, seen_y, Real.cos_add, Real.sin_add]
    revert i
    refine forall_lt_three.mpr ⟨?_, ?_, ?_⟩ <;> simp [part, seq3] <;> ring
  exact ⟨s, eS, hG, hC, hM⟩

/-- The test, call by call. -/
theorem test_calls {F : Type} [Scalar F] {draws : Nat → Nat} {va vm : Vec F} {A AE R RE Q QE : Mat F} {s : Sim F}
    (h0 : exec Vec.new (Vec.init 4) = .ok (Vec.zeros 4 : Vec F))
    (h1 : exec (Vec.zeros 4) (Quat.fillq (lit 0) (lit 0) (lit 0) (lit (-981 / 100))) = .ok va)
    (h2 : exec (Vec.zeros 4) (Quat.fillq (lit 0) (lit 48 *ᶠ Scalar.cos (lit 35 *ᶠ lit (174533 / 10000000) : F)) (lit 0)
      (Scalar.neg (lit 48) *ᶠ Scalar.sin (lit 35 *ᶠ lit (174533 / 10000000)))) = .ok vm)
    (h3 : generateRandomAttitudes draws 4 = .ok A) (h4 : eulerTable A 4 = .ok AE)
    (h5 : simulate A va vm (lit (1 / 100)) 3 = .ok s) (h6 : runAr A s.gyr (lit (1 / 100)) 3 = .ok R)
    (h7 : eulerTable R 3 = .ok RE) (h8 : runAqua A s.gyr s.acc s.mag (lit (1 / 100)) 3 = .ok Q)
    (h9 : eulerTable Q 3 = .ok QE) :
    arSeriesMethodTest draws = .ok ⟨AE, s.gyr, s.acc, s.mag, RE, QE⟩ := by
  have l : ∀ {α : Type} (x : α), liftL (.ok x : Res LinalgError α) = .ok x := fun _ => rfl
  unfold arSeriesMethodTest
  rw [h0, l, Res.ok_bind, h1, l, Res.ok_bind, Res.ok_bind, h2, l, Res.ok_bind, h3, l, Res.ok_bind, h4, l, Res.ok_bind, h5, l,
    Res.ok_bind, h6, Res.ok_bind, h7, l, Res.ok_bind, h8, Res.ok_bind, h9, l, Res.ok_bind]

/-- C96: whatever the generator draws, except `u64::MAX`, the test ends without a panic, and prints the following
numbers.  The true attitudes, in degrees, are a pitch of `2 (n + 1) δ`, with `δ = PI / 64`; the readings are those of
these attitudes.  The AR filter, started at the first attitude, shows the pitch `2 (δ + (n + 1) arctan(sin δ))` after the
reading that leads to attitude `n + 1`: it falls behind by more than `0.000038` radians per step.  The AQUA filter is
always between the attitude before the step and the estimate of the AR filter. -/
theorem C96_test {draws : Nat → Nat} (h : ∀ k, draws k < 2 ^ 64 - 1) :
    ∃ (r : AhrsTest XR) (f : Nat → ℝ), arSeriesMethodTest draws = .ok r ∧
      (∀ n, n < 4 → Col3 r.attitudes n 0 (2 * ((n + 1) * maxStep) * (572958 / 10000)) 0) ∧
      (∀ n, n < 3 → Col3 r.gyr n 0 (200 * Real.sin maxStep) 0) ∧
      (∀ n, n < 3 → Col3 r.acc n (-(981 / 100) * Real.sin (2 * ((n + 1) * maxStep))) 0
        (-(981 / 100) * Real.cos (2 * ((n + 1) * maxStep)))) ∧
      (∀ n, n < 3 → Col3 r.mag n (48 * Real.cos (35 * (174533 / 10000000) + 2 * ((n + 1) * maxStep))) 0
        (-(48 * Real.sin (35 * (174533 / 10000000) + 2 * ((n + 1) * maxStep))))) ∧
      (∀ n, n < 3 → Col3 r.ar n 0 (2 * (maxStep + (n + 1) * Real.arctan (Real.sin maxStep)) * (572958 / 10000)) 0) ∧
      (∀ n, n < 3 → Col3 r.aqua n 0 (2 * f n * (572958 / 10000)) 0 ∧ (n + 1) * maxStep < f n ∧
        f n < maxStep + (n + 1) * Real.arctan (Real.sin maxStep)) := by
  have hp := maxStep_pos
  have hl := maxStep_lt
  have hpi := Real.pi_gt_three
  obtain ⟨hsh, hσ⟩ := shortfall
  have hb : ∀ n : Nat, n < 4 → 0 ≤ ((n : ℝ) + 1) * maxStep ∧ ((n : ℝ) + 1) * maxStep < Real.pi / 4 := by
    intro n hn
    have : (n : ℝ) ≤ 3 := by exact_mod_cast (show n ≤ 3 by omega)
    exact ⟨by positivity, by nlinarith⟩
  obtain ⟨A, eA, hA⟩ := C61_values h (number := 4) (by omega) (by omega)
  obtain ⟨AE, eAE, hAE⟩ := eulerTable_ok (f := fun n => (n + 1) * maxStep) hA hb
  obtain ⟨ι, hι⟩ : ∃ ι : ℝ, ι = 35 * (174533 / 10000000) := ⟨_, rfl⟩
  rw [← hι]
  obtain ⟨va, e1, h1⟩ := Quat.fillq_ok (F := XR) (w := .fin 0) (x := .fin 0) (y := .fin 0) (z := .fin (-981 / 100))
    (Vec.zeros_is (n := 4) (by omega) (by omega)) (by simp) (by simp) (by simp) (by simp)
  obtain ⟨vm, e2, h2⟩ := Quat.fillq_ok (F := XR) (w := .fin 0) (x := .fin (48 * Real.cos ι)) (y := .fin 0)
    (z := .fin (-48 * Real.sin ι)) (Vec.zeros_is (n := 4) (by omega) (by omega)) (by simp) (by simp) (by simp) (by simp)
  have h1' : QuatIs va (mkQ 0 0 0 (-981 / 100)) := QuatIs.of _ h1 rfl rfl rfl rfl
  have h2' : QuatIs vm (mkQ 0 (48 * Real.cos ι) 0 (-48 * Real.sin ι)) := QuatIs.of _ h2 rfl rfl rfl rfl
  obtain ⟨s, eS, hG, hC, hM⟩ := sim_y hA h1' h2'
  have ht : (1 / 100 : ℝ) / 2 * (200 * Real.sin maxStep) = Real.sin maxStep := by ring
  have hA0 : ∀ i, i < 4 → A.getElement i 0 = .ok (.fin (seq4 (Real.cos maxStep) 0 (Real.sin maxStep) 0 i)) := by
    intro i hi
    rw [hA.get i 0 hi (by omega)]
    norm_num
  have hs0 : maxStep / 2 < Real.sin maxStep := by
    have := arctan_le (x := Real.sin maxStep) (Real.sin_pos_of_pos_of_lt_pi hp (by linarith)).le
    linarith
  have hmove : epsilon ℝ < |200 * Real.sin maxStep| := by
    have : (490 : ℝ) / 10000 < maxStep := by unfold maxStep; norm_num
    rw [abs_of_pos (by linarith)]
    linarith [AR.eps_lt_one]
  obtain ⟨R, eR, hR⟩ := runAr_ok (k := 3) (a := maxStep) (τ := 1 / 100) (by omega) (by omega) hA0 hG hmove
  rw [ht] at hR
  obtain ⟨Q, f, eQ, hQ, hf⟩ := runAqua_ok (k := 3) (δ := maxStep) (τ := 1 / 100) (by omega) (by omega) hA0 hG hC hM
    (by rw [hι]; norm_num) (by rw [hι]; norm_num) hp hl.le (by rw [ht]; exact hσ) (by rw [ht]; linarith)
  rw [ht] at hf
  have hup : ∀ n : Nat, n < 3 → maxStep + (n + 1) * Real.arctan (Real.sin maxStep) < Real.pi / 4 := by
    intro n hn
    have : (n : ℝ) ≤ 2 := by exact_mod_cast (show n ≤ 2 by omega)
    nlinarith
  obtain ⟨RE, eRE, hRE⟩ := hR.euler fun n hn => ⟨add_nonneg hp.le (mul_nonneg (by positivity) (by linarith)), hup n hn⟩
  obtain ⟨QE, eQE, hQE⟩ := hQ.euler fun n hn => ⟨(hb n (by omega)).1.trans (hf n hn).1.le, (hf n hn).2.trans (hup n hn)⟩
  refine ⟨⟨AE, s.gyr, s.acc, s.mag, RE, QE⟩, f, ?_, hAE, hG, hC, hM, hRE, fun n hn => ⟨hQE n hn, hf n hn⟩⟩
  have l0 : (lit (1 / 100) : XR) = .fin (1 / 100) := by rw [Ext.lit_eq]; norm_num
  have l1 : (lit 35 : XR) *ᶠ lit (174533 / 10000000) = .fin ι := by
    rw [Ext.lit_eq, Ext.lit_eq, Ext.mul_fin, hι]; norm_num
  have l2 : (lit 48 : XR) = .fin 48 := by rw [Ext.lit_eq]; norm_num
  have l3 : (lit (-981 / 100) : XR) = .fin (-981 / 100) := by rw [Ext.lit_eq]; norm_num
  refine test_calls (Vec.init_new (by omega) (by omega)) ?_ ?_ eA eAE (by rw [l0]; exact eS) (by rw [l0]; exact eR) eRE
    (by rw [l0]; exact eQ) eQE
  · rw [l3, Ext.lit_zero]
    exact exec_ok e1
  · rw [l1, l2, Ext.lit_zero, Ext.cos_fin, Ext.sin_fin, Ext.neg_fin, Ext.mul_fin, Ext.mul_fin]
    exact exec_ok e2

/-- C96: in what the test prints, the pitch of the AR filter is more than `(n + 1) 0.0021°` below the pitch of the
attitude that the reading leads to.  The pitch of the AQUA filter is lower still, but above the pitch before the step. -/
theorem C96_lag {draws : Nat → Nat} (h : ∀ k, draws k < 2 ^ 64 - 1) :
    ∃ r : AhrsTest XR, arSeriesMethodTest draws = .ok r ∧ ∀ n, n < 3 → ∃ t t' a q : ℝ,
      r.attitudes.getElement 1 n = .ok (.fin t) ∧ r.attitudes.getElement 1 (n + 1) = .ok (.fin t') ∧
      r.ar.getElement 1 n = .ok (.fin a) ∧ r.aqua.getElement 1 n = .ok (.fin q) ∧
      t < q ∧ q < a ∧ a + (n + 1) * (21 / 10000) < t' := by
  obtain ⟨r, f, e, h1, -, -, -, h2, h3⟩ := C96_test h
  refine ⟨r, e, fun n hn => ⟨_, _, _, _, h1 n (by omega) 1 (by omega), h1 (n + 1) (by omega) 1 (by omega),
    h2 n hn 1 (by omega), (h3 n hn).1 1 (by omega), ?_, ?_, ?_⟩⟩
  · have := (h3 n hn).2.1
    simp only [seq3]
    linarith
  · have := (h3 n hn).2.2
    simp only [seq3]
    linarith
  · have := shortfall.1
    have hn0 : (0 : ℝ) ≤ n := n.cast_nonneg
    simp only [seq3]
    push_cast
    nlinarith [mul_lt_mul_of_pos_left this (show (0 : ℝ) < n + 1 by linarith)]

/-- A generator that always draws the same word. -/
example : ∃ r : AhrsTest XR, arSeriesMethodTest (fun _ => 12345678901234567890) = .ok r ∧
    r.gyr.getElement 1 2 = .ok (.fin (200 * Real.sin maxStep)) := by
  obtain ⟨r, _, e, -, h, -⟩ := C96_test (draws := fun _ => 12345678901234567890) fun _ => by norm_num
  exact ⟨r, e, h 2 (by omega) 1 (by omega)⟩

/-- The attitudes that the test generates meet the hypotheses of `C95_frames`: the rate and the turn of the
acceleration are about the same axis `y`, with the same sign. -/
example {A : Mat XR} {va vm : Vec XR} {ι : ℝ}
    (hA : MatIs A 4 4 fun i n => .fin (seq4 (Real.cos ((n + 1) * maxStep)) 0 (Real.sin ((n + 1) * maxStep)) 0 i))
    (h1 : QuatIs va (mkQ 0 0 0 (-981 / 100))) (h2 : QuatIs vm (mkQ 0 (48 * Real.cos ι) 0 (-48 * Real.sin ι))) :
    ∃ s c c', simulate A va vm (.fin (1 / 100)) 3 = .ok s ∧ ColIs s.acc 1 c ∧ ColIs s.acc 2 c' ∧
      c' = yQ maxStep * c * star (yQ maxStep) := by
  obtain ⟨s, c, c', _, e, g1, g2, -, -, -, -, g3, -⟩ := C95_frames (τ := 1 / 100) (k := 3) (n := 1) hA (by norm_num) h1 h2 rfl
    (fun n _ => yQ_normSq _) (by omega)
  refine ⟨s, c, c', e, g1, g2, ?_⟩
  have hx : ∀ n : Nat, colQ (fun i n => seq4 (Real.cos ((n + 1) * maxStep)) 0 (Real.sin ((n + 1) * maxStep)) 0 i) n =
      yQ ((n + 1) * maxStep) := fun n => rfl
  rw [hx, hx, yQ_star, yQ_mul, show ((1 + 1 : ℕ) + 1) * maxStep + -(((1 : ℕ) + 1) * maxStep) = maxStep by push_cast; ring] at g3
  exact g3

end Verif.AhrsTest
