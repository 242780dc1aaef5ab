import Verif.Props.RoundedTestStep

/-
C133: the AQUA filter of the test of `open_ahrs/src/lib.rs` in binary32, and the whole test.
-/

set_option linter.unusedSectionVars false
set_option linter.unusedSimpArgs false

namespace Verif
open Scalar Finset Quaternion

variable {F : Type} [Scalar F] [R : Rounded F]

namespace AhrsTest
open Ahrs (maxStep maxStep_pos maxStep_lt)

theorem QTab.congr {T : Mat F} {k n : Nat} {a b δ : Nat → ℝ} (h : QTab T k n a δ) (hab : ∀ j, j < n → a j = b j) :
    QTab T k n b δ := by
  obtain ⟨X, hX, hb⟩ := h
  refine ⟨X, hX, fun j hj => ?_⟩
  rw [← hab j hj]
  exact hb j hj

theorem aquaInit32_valid {w x y z τ : F} (hw : Finite w) (hx : Finite x) (hy : Finite y) (hz : Finite z) :
    (aquaInit w x y z τ).Valid where
  gyr := fun _ => ⟨_, rfl, by
    intro a ha
    have : a = lit 1 ∨ a = lit 0 := by
      simp [GyrometerConfig.default, GyrometerConfig.params] at ha
      tauto
    rcases this with rfl | rfl
    · exact R.one_finite
    · exact R.zero_finite⟩
  acc := by
    intro a ha
    have : a = lit 1 ∨ a = lit 0 := by
      simp [aquaInit, AccelerometerConfig.default, AccelerometerConfig.params] at ha
      tauto
    rcases this with rfl | rfl
    · exact R.one_finite
    · exact R.zero_finite
  mag := by
    intro a ha
    have : a = lit 1 ∨ a = lit 0 := by
      simp [aquaInit, MagnetometerConfig.default, MagnetometerConfig.params] at ha
      tauto
    rcases this with rfl | rfl
    · exact R.one_finite
    · exact R.zero_finite
  quat := Or.inr ⟨_, _, _, _, rfl, rfl, rfl, rfl, hw, hx, hy, hz⟩

/-- The configurations of a filter of the test. -/
structure Plain32 (i : AquaInit F) (s : Aqua F) : Prop where
  started : Aqua.Started i s
  gyr : s.getGyrometerConfig = .ok .default
  acc : s.getAccelerometerConfig = .ok .default
  mag : s.getMagnetometerConfig = .ok .default

theorem Plain32.update {i : AquaInit F} {s s' : Aqua F} (h : Plain32 i s) {gx gy gz : Option F} {ax ay az mx my mz : F}
    (e1 : Aqua.update gx gy gz ax ay az mx my mz s = (.ok (), s')) : Plain32 i s' := by
  obtain ⟨hr, -⟩ := h.started.ready
  have hstep := Aqua.frame_update gx gy gz ax ay az mx my mz s
  rw [e1] at hstep
  have hst' : Aqua.Started i s' := by
    obtain ⟨u0, u1, l0, l1, l2⟩ := h.started
    have := Aqua.Leads.step (.update gx gy gz ax ay az mx my mz) l2
    rw [Aqua.call, e1] at this
    exact ⟨u0, u1, l0, l1, this⟩
  exact ⟨hst', (hstep.gyr hr.gyr).2.2.trans h.gyr, (hstep.acc hr.acc).2.2.trans h.acc, (hstep.mag hr.mag).2.2.trans h.mag⟩

/-- The table of the AQUA filter of the test. -/
theorem runAqua32 [Halves F] [ScalarLawful F] [Literals F] {A G C M : Mat F} {x g c m : Nat → Nat → F} (hA : MatIs A 4 4 x)
    (hx : ∀ i, i < 4 → Finite (x i 0)) (h0 : ‖colF x 0 - yQ maxStep‖ ≤ 8 / 10 ^ 6) (hG : MatIs G 3 3 g) (hC : MatIs C 3 3 c)
    (hM : MatIs M 3 3 m)
    (hs : ∀ n : Nat, n < 3 → (∀ i, i < 3 → Finite (g i n) ∧ Finite (c i n) ∧ Finite (m i n)) ∧
        ‖col3 g n - mkQ 0 0 (200 * Real.sin maxStep) 0‖ ≤ 105 / 10 ^ 4 * (7 / 2) ^ n ∧
        ‖col3 c n - mkQ 0 (-(981 / 100) * Real.sin (2 * ((n + 1) * maxStep))) 0
          (-(981 / 100) * Real.cos (2 * ((n + 1) * maxStep)))‖ ≤ 3 / 10 ^ 4 * (7 / 2) ^ n ∧
        ‖col3 m n - mkQ 0 (48 * Real.cos (incl + 2 * ((n + 1) * maxStep))) 0
          (-(48 * Real.sin (incl + 2 * ((n + 1) * maxStep))))‖ ≤ 151 / 10 ^ 5 * (7 / 2) ^ n) :
    ∃ T f, runAqua A G C M (lit (1 / 100)) 3 = .ok T ∧ QTab T 3 3 f (fun n => 16 / 10 ^ 5 * (7 / 2) ^ (n + 1)) ∧
      ∀ n : Nat, n < 3 → (n + 1) * maxStep < f n ∧ f n < maxStep + (n + 1) * Real.arctan (Real.sin maxStep) := by
  have hp := maxStep_pos
  have hl := maxStep_lt
  have hσ1 := shortfall.2
  have hσ2 := sigma_bounds.2
  obtain ⟨σ, hσ⟩ : ∃ σ, σ = Real.arctan (Real.sin maxStep) := ⟨_, rfl⟩
  rw [← hσ] at hσ1 hσ2 ⊢
  obtain ⟨s0, e0, -⟩ := Aqua.new_fresh (F := F)
  have hr0 : Aqua.Reachable s0 := ⟨s0, e0, .refl _⟩
  obtain ⟨i, hi⟩ : ∃ i, i = aquaInit (x 0 0) (x 1 0) (x 2 0) (x 3 0) (lit (1 / 100)) := ⟨_, rfl⟩
  obtain ⟨s1, hs1⟩ : ∃ s1, s1 = (Aqua.init i s0).2 := ⟨_, rfl⟩
  have hin : Aqua.init i s0 = (.ok (), s1) := by
    rw [hs1]
    exact Prod.ext ((C52_iff e0).mpr (by
      rw [hi]; exact aquaInit32_valid (hx 0 (by omega)) (hx 1 (by omega)) (hx 2 (by omega)) (hx 3 (by omega)))) rfl
  obtain ⟨⟨v, hv, hv1⟩, hg, ha, hm⟩ := C52_attitude hr0 hin
  have hst : Aqua.Started i s1 := ⟨s0, _, hr0, hin, .refl _⟩
  obtain ⟨cg, hcg, hg⟩ := hg (by rw [hi]; rfl)
  have hg' : s1.getGyrometerConfig = .ok .default := by
    rw [hg]
    rw [hi] at hcg
    rw [← Option.some.inj hcg]
  have ha' : s1.getAccelerometerConfig = .ok .default := by rw [ha, hi]; rfl
  have hm' : s1.getMagnetometerConfig = .ok .default := by rw [hm, hi]; rfl
  have hq0 : qval (seq4 (x 0 0) (x 1 0) (x 2 0) (x 3 0)) = colF x 0 := rfl
  have hsh : Aqua.ShowsF s1 fun f => (1 / 2 ≤ ‖qval f‖ ∧ ‖qval f‖ ≤ 2) ∧
      ‖‖qval f‖⁻¹ • qval f - yQ maxStep‖ ≤ 16 / 10 ^ 5 * (7 / 2) ^ 0 := by
    rw [hi] at hv1
    have n1 : |‖colF x 0‖ - 1| ≤ 8 / 10 ^ 6 := by
      have := abs_norm_sub_norm_le (colF x 0) (yQ maxStep)
      rw [yQ_norm] at this
      exact this.trans h0
    obtain ⟨n2, n3⟩ := abs_le.mp n1
    norm_num at n2 n3
    refine ⟨v, _, hv, hv1, forall_lt_four.mpr ⟨hx 0 (by omega), hx 1 (by omega), hx 2 (by omega), hx 3 (by omega)⟩, ?_, ?_⟩
    · change (1 / 2 ≤ ‖qval (seq4 (x 0 0) (x 1 0) (x 2 0) (x 3 0))‖ ∧ ‖qval (seq4 (x 0 0) (x 1 0) (x 2 0) (x 3 0))‖ ≤ 2)
      rw [hq0]
      constructor <;> linarith
    · change ‖‖qval (seq4 (x 0 0) (x 1 0) (x 2 0) (x 3 0))‖⁻¹ • qval (seq4 (x 0 0) (x 1 0) (x 2 0) (x 3 0)) - yQ maxStep‖ ≤ _
      rw [hq0]
      have hd := normalised_dist (x := colF x 0) (y := yQ maxStep) (norm_pos_iff.mp (by linarith))
        (norm_pos_iff.mp (by rw [yQ_norm]; norm_num))
      rw [yQ_norm, inv_one, one_smul, div_one] at hd
      simp only [pow_zero, mul_one]
      norm_num at hd h0 ⊢
      linarith
  obtain ⟨T, eT, hT⟩ := table32 (F := F) (r := 4) (k := 3) (by omega) (by omega) (by omega) (by omega)
  have key := foldRange_inv (ε := AhrsError) (fun n (s : Aqua F × Mat F) => do
      let gx ← liftL (G.getElement 0 n)
      let gy ← liftL (G.getElement 1 n)
      let gz ← liftL (G.getElement 2 n)
      let ax ← liftL (C.getElement 0 n)
      let ay ← liftL (C.getElement 1 n)
      let az ← liftL (C.getElement 2 n)
      let mx ← liftL (M.getElement 0 n)
      let my ← liftL (M.getElement 1 n)
      let mz ← liftL (M.getElement 2 n)
      let filter ← exec s.1 (Aqua.update (some gx) (some gy) (some gz) ax ay az mx my mz)
      let estimates ← liftL (exec s.2 (Mat.setCol (← filter.getAttitude) n))
      .ok (filter, estimates))
    (fun n s => (∃ p, Plain32 i s.1 ∧ (Aqua.ShowsF s.1 fun f => (1 / 2 ≤ ‖qval f‖ ∧ ‖qval f‖ ≤ 2) ∧
          ‖‖qval f‖⁻¹ • qval f - yQ p‖ ≤ 16 / 10 ^ 5 * (7 / 2) ^ n) ∧
        (n + 1) * maxStep - n * maxStep / 5 ≤ p ∧ p ≤ maxStep + n * σ) ∧
      ∃ f : Nat → ℝ, QTab s.2 3 n f (fun n => 16 / 10 ^ 5 * (7 / 2) ^ (n + 1)) ∧
        ∀ j : Nat, j < n → (j + 1) * maxStep < f j ∧ f j < maxStep + (j + 1) * σ) 0 3 (by omega) (s1, T)
    ⟨⟨maxStep, ⟨hst, hg', ha', hm'⟩, hsh, by simp, by simp⟩, fun _ => 0, ⟨_, hT, fun j hj => absurd hj (by omega)⟩,
      fun j hj => absurd hj (by omega)⟩ (by
      rintro n ⟨s, T⟩ - hn ⟨⟨p, k1, ⟨v, f, e1, k2, k3, ⟨k4, k5⟩, k6⟩, k7, k8⟩, F', k9, k10⟩
      obtain ⟨a1, a2, a3⟩ := arith (show n < 3 by omega) hp hl.le hσ1 hσ2 k7 k8
      obtain ⟨q1, q2, q3, q4⟩ := hs n hn
      have t1 : (1 : ℝ) ≤ (7 / 2) ^ n := one_le_pow₀ (by norm_num)
      have t2 : (7 / 2 : ℝ) ^ n ≤ (7 / 2) ^ 2 := pow_le_pow_right₀ (by norm_num) (by omega)
      have t3 : (7 / 2 : ℝ) ^ (n + 1) = 7 / 2 * (7 / 2) ^ n := by ring
      obtain ⟨t, ht⟩ : ∃ t : ℝ, t = (7 / 2) ^ n := ⟨_, rfl⟩
      rw [← ht] at t1 t2 t3 q2 q3 q4 k6
      norm_num at t2
      rw [hσ] at a1 a2
      obtain ⟨s', μ, e2, m1, m2, v', f', e3, l2, l3, l4, l5⟩ := aquaStep32 k1.started (by rw [hi]; rfl) (by rw [hi]; rfl)
        (by rw [hi]; rfl) (by rw [hi]; rfl) (by rw [hi]; rfl) (by rw [hi]; rfl) (by rw [hi]; rfl) k1.gyr k1.acc k1.mag
        ⟨v, f, e1, k2, k3, rfl⟩ k4 k5 k6 (by norm_num; linarith) t1 t2
        ⟨(q1 0 (by omega)).1, (q1 1 (by omega)).1, (q1 2 (by omega)).1⟩
        ⟨(q1 0 (by omega)).2.1, (q1 1 (by omega)).2.1, (q1 2 (by omega)).2.1⟩
        ⟨(q1 0 (by omega)).2.2, (q1 1 (by omega)).2.2, (q1 2 (by omega)).2.2⟩ q2 q3 q4 a1 a2
      rw [← hσ] at m2 l5
      obtain ⟨b1, b2, b3⟩ := a3 μ m1 m2
      obtain ⟨u1, u2, u3⟩ := near_unit_dist l4 (yQ (p + σ - μ))
      have l6 : ‖qval f' - yQ (p + σ - μ)‖ ≤ 16 / 10 ^ 5 * (7 / 2) ^ (n + 1) := by
        rw [t3]
        norm_num at l5 ⊢
        linarith
      obtain ⟨F2, hF2⟩ : ∃ F2 : Nat → ℝ, F2 = fun j => if j = n then p + σ - μ else F' j := ⟨_, rfl⟩
      have hfn : F2 n = p + σ - μ := by rw [hF2]; simp
      have k9' : QTab T 3 n F2 (fun n => 16 / 10 ^ 5 * (7 / 2) ^ (n + 1)) := k9.congr fun j hj => by
        rw [hF2]
        simp only [show j ≠ n by omega, if_false]
      rw [← hfn] at l6
      obtain ⟨T', e4, k11⟩ := k9'.next hn l2 l3 l6 u2
      refine ⟨(s', T'), ?_, ⟨p + σ - μ, k1.update e2, ⟨v', f', e3, l2, l3, ⟨u3, by linarith⟩, ?_⟩, by push_cast; exact b1,
        by push_cast; exact b3.le⟩, F2, k11, fun j hj => ?_⟩
      · rw [hG.get 0 n (by omega) hn, hG.get 1 n (by omega) hn, hG.get 2 n (by omega) hn, hC.get 0 n (by omega) hn,
          hC.get 1 n (by omega) hn, hC.get 2 n (by omega) hn, hM.get 0 n (by omega) hn, hM.get 1 n (by omega) hn,
          hM.get 2 n (by omega) hn]
        simp only [Res.mapErr_ok, Res.ok_bind]
        rw [exec_ok e2, Res.ok_bind, e3, Res.ok_bind, e4]
        rfl
      · rw [t3]
        norm_num at l5 u1 ⊢
        linarith
      · by_cases hjn : j = n
        · subst hjn
          rw [hfn]
          exact ⟨b2, b3⟩
        · rw [hF2]
          simp only [hjn, if_false]
          exact k10 j (by omega))
  obtain ⟨r, e, -, f, hf, hfb⟩ := key
  refine ⟨r.2, f, ?_, hf, hfb⟩
  rw [hi] at hin
  unfold runAqua
  rw [e0, hA.get 0 0 (by omega) (by omega), hA.get 1 0 (by omega) (by omega), hA.get 2 0 (by omega) (by omega),
    hA.get 3 0 (by omega) (by omega), eT]
  simp only [Res.mapErr_ok, Res.ok_bind]
  rw [exec_ok hin, Res.ok_bind, e]
  rfl

theorem angle_range {n : Nat} (hn : n < 3) : 0 ≤ ((n : ℝ) + 1) * maxStep ∧
    maxStep + ((n : ℝ) + 1) * Real.arctan (Real.sin maxStep) ≤ 1 / 5 := by
  obtain ⟨l, u⟩ := maxStep_bounds
  obtain ⟨s0, s1⟩ := sigma_bounds
  have hn2 : (n : ℝ) ≤ 2 := by exact_mod_cast (by omega : n ≤ 2)
  have hn0 : (0 : ℝ) ≤ n := Nat.cast_nonneg n
  have m1 : ((n : ℝ) + 1) * Real.arctan (Real.sin maxStep) ≤ 3 * maxStep := mul_le_mul (by linarith) s1 s0 (by norm_num)
  have : 0 < maxStep := by linarith
  exact ⟨by positivity, by linarith⟩

/-- C133: the test of the crate in binary32, whatever the generator draws except `u64::MAX`: it ends without a panic,
and prints the numbers of C96 up to the stated errors, which grow by 7/2 per sample. -/
theorem C133_test [Trig F] [Acos F] [Arcs F] [Wraps F] [Halves F] [ScalarLawful F] [Literals F] {d : Nat → Nat}
    (hd : ∀ k, d k < 2 ^ 64 - 1) :
    ∃ (r : AhrsTest F) (f : Nat → ℝ), arSeriesMethodTest d = .ok r ∧
      (∀ n : Nat, n < 4 → Col32 r.attitudes n 0 (2 * ((n + 1) * maxStep) * (572958 / 10000)) 0
        (287 * (32 / 10 ^ 7 * ((7 / 2) ^ (n + 1) - 1)) + 2 / 10 ^ 4)) ∧
      ∀ n : Nat, n < 3 → Col32 r.gyr n 0 (200 * Real.sin maxStep) 0 (105 / 10 ^ 4 * (7 / 2) ^ n) ∧
        Col32 r.acc n (-(981 / 100) * Real.sin (2 * ((n + 1) * maxStep))) 0
          (-(981 / 100) * Real.cos (2 * ((n + 1) * maxStep))) (3 / 10 ^ 4 * (7 / 2) ^ n) ∧
        Col32 r.mag n (48 * Real.cos (35 * (174533 / 10000000) + 2 * ((n + 1) * maxStep))) 0
          (-(48 * Real.sin (35 * (174533 / 10000000) + 2 * ((n + 1) * maxStep)))) (151 / 10 ^ 5 * (7 / 2) ^ n) ∧
        Col32 r.ar n 0 (2 * (maxStep + (n + 1) * Real.arctan (Real.sin maxStep)) * (572958 / 10000)) 0
          (287 * (5 / 10 ^ 5 * (7 / 2) ^ (n + 1)) + 2 / 10 ^ 4) ∧
        Col32 r.aqua n 0 (2 * f n * (572958 / 10000)) 0 (287 * (16 / 10 ^ 5 * (7 / 2) ^ (n + 1)) + 2 / 10 ^ 4) ∧
        (n + 1) * maxStep < f n ∧ f n < maxStep + (n + 1) * Real.arctan (Real.sin maxStep) := by
  obtain ⟨va, vm, A, AE, s, x, G, C, M, ea, em, eA, eE, eS, hE, hx, fx, h0, hG, hC, hM, hs⟩ := setup32 (F := F) hd
  obtain ⟨T, eT, hT⟩ := runAr32 hx fx h0 hG fun n hn => ⟨fun i hi => ((hs n hn).1 i hi).1, (hs n hn).2.1⟩
  obtain ⟨Q, f, eQ, hQ, hf⟩ := runAqua32 hx fx h0 hG hC hM hs
  have hpow : ∀ n, n < 3 → (7 / 2 : ℝ) ^ (n + 1) ≤ (7 / 2) ^ 3 := fun n hn => pow_le_pow_right₀ (by norm_num) (by omega)
  obtain ⟨TE, eTE, hTE⟩ := hT.angles fun n hn => ⟨by have := hpow n hn; norm_num at this ⊢; linarith, by
    have := sigma_bounds.1
    have := maxStep_pos
    positivity, (angle_range hn).2⟩
  obtain ⟨QE, eQE, hQE⟩ := hQ.angles fun n hn => ⟨by have := hpow n hn; norm_num at this ⊢; linarith,
    (angle_range hn).1.trans (hf n hn).1.le, (hf n hn).2.le.trans (angle_range hn).2⟩
  refine ⟨⟨AE, s.gyr, s.acc, s.mag, TE, QE⟩, f, test_calls (Vec.init_new (by omega) (by omega)) ea em eA eE eS eT eTE eQ eQE, hE,
    fun n hn => ⟨.of hG hn (fun i hi => ((hs n hn).1 i hi).1) (hs n hn).2.1, .of hC hn (fun i hi => ((hs n hn).1 i hi).2.1) (hs n hn).2.2.1,
      .of hM hn (fun i hi => ((hs n hn).1 i hi).2.2) (hs n hn).2.2.2, hTE n hn, hQE n hn, hf n hn⟩⟩

/-- With one source of draws: the test prints a first pitch of the AQUA filter between 5 and 12 degrees. -/
example : ∃ (r : AhrsTest F32W) (x : F32W), arSeriesMethodTest (fun _ => 12345678901234567890) = .ok r ∧
    r.aqua.getElement 1 0 = .ok x ∧ 5 ≤ ⟪x⟫ ∧ ⟪x⟫ ≤ 12 := by
  obtain ⟨r, f, e, -, h⟩ := C133_test (F := F32W) (d := fun _ => 12345678901234567890) (fun _ => by norm_num)
  obtain ⟨-, -, -, -, h1, h2, h3⟩ := h 0 (by omega)
  obtain ⟨x, ex, -, hx⟩ := h1 1 (by omega)
  simp only [seq3] at hx
  obtain ⟨l, u⟩ := maxStep_bounds
  have hs' := sigma_bounds.2
  obtain ⟨x1, x2⟩ := abs_le.mp hx
  norm_num at x1 x2 h2 h3
  exact ⟨r, x, e, ex, by linarith, by linarith⟩

end AhrsTest
end Verif
