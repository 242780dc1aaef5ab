import Verif.Props.RoundedTest

/-
C133: the two filters of the test of `open_ahrs/src/lib.rs` in binary32.
-/

set_option linter.unusedSectionVars false
set_option linter.unusedSimpArgs false

namespace Verif
open Scalar Finset Quaternion

variable {F : Type} [Scalar F] [R : Rounded F]

namespace AhrsTest
open Ahrs (maxStep)

theorem maxStep_bounds : 490 / 10000 < maxStep ∧ maxStep < 491 / 10000 := by
  unfold maxStep
  norm_num

/-- The rate the gyrometer of the test sees. -/
theorem rate_bounds : 9 ≤ 200 * Real.sin maxStep ∧ 200 * Real.sin maxStep ≤ 10 := by
  obtain ⟨hg, hl⟩ := maxStep_bounds
  have hp : 0 < maxStep := by linarith
  have hs := Real.sin_le hp.le
  have hb := Real.sin_bound (x := maxStep) (by rw [abs_of_pos hp]; linarith)
  rw [abs_of_pos hp, abs_le] at hb
  have h3 : maxStep ^ 3 ≤ (491 / 10000) ^ 3 := pow_le_pow_left₀ hp.le hl.le 3
  have h4 : maxStep ^ 5 ≤ (491 / 10000) ^ 5 := pow_le_pow_left₀ hp.le hl.le 5
  norm_num at h3 h4 hb
  constructor <;> linarith [hb.1]

/-- The first `n` columns of a table are near the rotations about the second axis with the half-angles `a`. -/
def QTab (T : Mat F) (k n : Nat) (a δ : Nat → ℝ) : Prop :=
  ∃ X : Nat → Nat → F, MatIs T 4 k X ∧ ∀ j, j < n →
    (∀ i, i < 4 → Finite (X i j)) ∧ ‖colF X j - yQ (a j)‖ ≤ δ j ∧ ‖colF X j‖ ≤ 1001 / 1000

theorem QTab.next {T : Mat F} {k n : Nat} {a δ : Nat → ℝ} (h : QTab T k n a δ) (hn : n < k) {v : Vec F} {f : Nat → F}
    (hv : VecIs v 4 f) (hf : ∀ i, i < 4 → Finite (f i)) (hd : ‖qval f - yQ (a n)‖ ≤ δ n) (hu : ‖qval f‖ ≤ 1001 / 1000) :
    ∃ T', exec T (Mat.setCol v n) = .ok T' ∧ QTab T' k (n + 1) a δ := by
  obtain ⟨X, hX, hb⟩ := h
  obtain ⟨T', e, hT'⟩ := Mat.setCol_ok hX hv hn hf
  refine ⟨T', exec_ok e, _, hT', fun j hj => ?_⟩
  by_cases hjn : j = n
  · subst hjn
    simp only [colF, if_true]
    exact ⟨hf, hd, hu⟩
  · simp only [colF, hjn, if_false]
    exact hb j (by omega)

theorem near_unit_dist {f : Nat → F} (h : NearUnit f) (y : Quaternion ℝ) :
    ‖‖qval f‖⁻¹ • qval f - y‖ ≤ ‖qval f - y‖ + 1 / 10 ^ 6 ∧ ‖qval f‖ ≤ 1001 / 1000 ∧ 1 / 2 ≤ ‖qval f‖ := by
  unfold NearUnit at h
  obtain ⟨h1, h2⟩ := abs_le.mp h
  have h0 : 1 / 2 ≤ ‖qval f‖ := by norm_num at h1; linarith
  refine ⟨?_, by norm_num at h2; linarith, h0⟩
  have e : ‖qval f‖⁻¹ • qval f - y = (qval f - y) + (‖qval f‖⁻¹ - 1) • qval f := by rw [sub_smul, one_smul]; abel
  have e2 : ‖(‖qval f‖⁻¹ - 1) • qval f‖ = |‖qval f‖ - 1| := by
    have hn : |‖qval f‖| = ‖qval f‖ := abs_of_nonneg (norm_nonneg _)
    rw [norm_smul, Real.norm_eq_abs]
    conv_lhs => rw [← hn, ← abs_mul]
    rw [hn, sub_mul, inv_mul_cancel₀ (by linarith), one_mul, abs_sub_comm]
  rw [e]
  refine (norm_add_le _ _).trans ?_
  rw [e2]
  gcongr

/-- The table of the AR filter of the test. -/
theorem runAr32 [Halves F] [Literals F] {A G : Mat F} {x g : Nat → Nat → F} (hA : MatIs A 4 4 x) (hx : ∀ i, i < 4 → Finite (x i 0))
    (h0 : ‖colF x 0 - yQ maxStep‖ ≤ 8 / 10 ^ 6) (hG : MatIs G 3 3 g)
    (hg : ∀ n, n < 3 → (∀ i, i < 3 → Finite (g i n)) ∧
      ‖col3 g n - mkQ 0 0 (200 * Real.sin maxStep) 0‖ ≤ 105 / 10 ^ 4 * (7 / 2) ^ n) :
    ∃ T, runAr A G (lit (1 / 100)) 3 = .ok T ∧ QTab T 3 3 (fun n => maxStep + (n + 1) * Real.arctan (Real.sin maxStep))
      fun n => 5 / 10 ^ 5 * (7 / 2) ^ (n + 1) := by
  obtain ⟨σ, hσ⟩ : ∃ σ, σ = Real.arctan (Real.sin maxStep) := ⟨_, rfl⟩
  rw [← hσ]
  obtain ⟨s0, e0, -⟩ := AR.new_fresh (F := F)
  obtain ⟨i, hi⟩ : ∃ i : ARInit F, i = ⟨x 0 0, x 1 0, x 2 0, x 3 0, GyrometerConfig.default, lit (1 / 100), .Euler, 3⟩ := ⟨_, rfl⟩
  have hv : (AR.initWith i s0).1 = .ok () := by
    refine (C46_iff e0).mpr ⟨?_, ?_⟩
    · rw [hi]
      intro a ha
      have : a = lit 1 ∨ a = lit 0 := by
        simp [GyrometerConfig.default, GyrometerConfig.params] at ha
        tauto
      rcases this with rfl | rfl
      · exact R.one_finite
      · exact R.zero_finite
    · rw [hi]
      exact ⟨hx 0 (by omega), hx 1 (by omega), hx 2 (by omega), hx 3 (by omega)⟩
  have h' : AR.initWith i s0 = (.ok (), (AR.initWith i s0).2) := by rw [← hv]
  obtain ⟨s1, hs1⟩ : ∃ s1, s1 = (AR.initWith i s0).2 := ⟨_, rfl⟩
  rw [← hs1] at h'
  have hst : AR.Started i s1 := ⟨s0, _, ⟨s0, e0, .refl _⟩, h', .refl _⟩
  have hq0 : qval (seq4 (x 0 0) (x 1 0) (x 2 0) (x 3 0)) = colF x 0 := rfl
  have hsh : AR.ShowsF s1 fun f => (1 / 2 ≤ ‖qval f‖ ∧ ‖qval f‖ ≤ 2) ∧
      ‖‖qval f‖⁻¹ • qval f - yQ (maxStep + ((0 : ℕ) : ℝ) * σ)‖ ≤ 5 / 10 ^ 5 * (7 / 2) ^ 0 := by
    obtain ⟨v, ev, hv⟩ := C46_attitude ⟨s0, e0, .refl _⟩ h'
    rw [hi] at hv
    have n1 : |‖colF x 0‖ - 1| ≤ 8 / 10 ^ 6 := by
      have := abs_norm_sub_norm_le (colF x 0) (yQ maxStep)
      rw [yQ_norm] at this
      exact this.trans h0
    obtain ⟨n2, n3⟩ := abs_le.mp n1
    norm_num at n2 n3
    refine ⟨v, _, ev, hv, forall_lt_four.mpr ⟨hx 0 (by omega), hx 1 (by omega), hx 2 (by omega), hx 3 (by omega)⟩, ?_, ?_⟩
    · rw [hq0]
      constructor <;> linarith
    · rw [hq0]
      have hd := normalised_dist (x := colF x 0) (y := yQ maxStep) (norm_pos_iff.mp (by linarith))
        (norm_pos_iff.mp (by rw [yQ_norm]; norm_num))
      rw [yQ_norm, inv_one, one_smul, div_one] at hd
      simp only [Nat.cast_zero, zero_mul, add_zero, pow_zero, mul_one]
      norm_num at hd h0 ⊢
      linarith
  obtain ⟨T, eT, hT⟩ := table32 (F := F) (r := 4) (k := 3) (by omega) (by omega) (by omega) (by omega)
  obtain ⟨c0, c1⟩ := rate_bounds
  have key := foldRange_inv (ε := AhrsError) (fun n (s : AR F × Mat F) => do
      let gx ← liftL (G.getElement 0 n)
      let gy ← liftL (G.getElement 1 n)
      let gz ← liftL (G.getElement 2 n)
      let filter ← exec s.1 (AR.update gx gy gz)
      let estimates ← liftL (exec s.2 (Mat.setCol (← filter.getAttitude) n))
      .ok (filter, estimates))
    (fun n s => (AR.Started i s.1 ∧ AR.ShowsF s.1 fun f => (1 / 2 ≤ ‖qval f‖ ∧ ‖qval f‖ ≤ 2) ∧
        ‖‖qval f‖⁻¹ • qval f - yQ (maxStep + (n : ℝ) * σ)‖ ≤ 5 / 10 ^ 5 * (7 / 2) ^ n) ∧
      QTab s.2 3 n (fun n => maxStep + (n + 1) * σ) fun n => 5 / 10 ^ 5 * (7 / 2) ^ (n + 1)) 0 3 (by omega) (s1, T)
    ⟨⟨hst, hsh⟩, _, hT, fun j hj => absurd hj (by omega)⟩ (by
      rintro n ⟨s, M⟩ - hn ⟨⟨k1, v, f, e1, k2, k3, ⟨k4, k5⟩, k6⟩, k7⟩
      obtain ⟨g1, g2⟩ := hg n hn
      have t1 : (1 : ℝ) ≤ (7 / 2) ^ n := one_le_pow₀ (by norm_num)
      have t2 : (7 / 2 : ℝ) ^ n ≤ (7 / 2) ^ 2 := pow_le_pow_right₀ (by norm_num) (by omega)
      have t3 : (7 / 2 : ℝ) ^ (n + 1) = 7 / 2 * (7 / 2) ^ n := by ring
      obtain ⟨t, ht⟩ : ∃ t : ℝ, t = (7 / 2) ^ n := ⟨_, rfl⟩
      rw [← ht] at t1 t2 t3 g2 k6
      norm_num at t2
      obtain ⟨s', e2, l1, v', f', e3, l2, l3, l4, l5⟩ := arStep32 k1 (by rw [hi]) (by rw [hi]) (by rw [hi])
        ⟨v, f, e1, k2, k3, rfl⟩ k4 k5 k6 (g1 0 (by omega)) (g1 1 (by omega)) (g1 2 (by omega)) g2 (by norm_num; linarith)
        (by linarith) c1
      have ec : 200 * Real.sin maxStep / 200 = Real.sin maxStep := by ring
      have ea : maxStep + (n : ℝ) * σ + σ = maxStep + ((n : ℝ) + 1) * σ := by ring
      rw [ec, ← hσ, ea] at l5
      obtain ⟨u1, u2, u3⟩ := near_unit_dist l4 (yQ (maxStep + ((n : ℝ) + 1) * σ))
      have l6 : ‖qval f' - yQ (maxStep + ((n : ℝ) + 1) * σ)‖ ≤ 5 / 10 ^ 5 * (7 / 2) ^ (n + 1) := by
        rw [t3]
        norm_num at l5 ⊢
        linarith
      obtain ⟨M', e4, k8⟩ := k7.next hn l2 l3 l6 u2
      refine ⟨(s', M'), ?_, ⟨l1, v', f', e3, l2, l3, ⟨u3, by linarith⟩, ?_⟩, k8⟩
      · rw [hG.get 0 n (by omega) hn, hG.get 1 n (by omega) hn, hG.get 2 n (by omega) hn]
        simp only [Res.mapErr_ok, Res.ok_bind]
        rw [exec_ok e2, Res.ok_bind, e3, Res.ok_bind, e4]
        rfl
      · push_cast
        rw [t3]
        norm_num at l5 u1 ⊢
        linarith)
  obtain ⟨r, e, -, h2⟩ := key
  refine ⟨r.2, ?_, h2⟩
  rw [hi] at h'
  unfold AR.initWith at h'
  unfold runAr
  rw [e0, hA.get 0 0 (by omega) (by omega), hA.get 1 0 (by omega) (by omega), hA.get 2 0 (by omega) (by omega),
    hA.get 3 0 (by omega) (by omega), eT]
  simp only [Res.mapErr_ok, Res.ok_bind]
  rw [exec_ok h', Res.ok_bind, e]
  rfl

end AhrsTest
end Verif
