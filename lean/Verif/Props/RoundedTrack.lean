import Mathlib.Analysis.SpecialFunctions.Exponential
import Verif.Props.RoundedClosed

/-
The AR filter with the closed form in binary32 over a sequence of samples (C83).
-/

set_option linter.unusedSectionVars false

namespace Verif
open Scalar Finset

/-! ### The exponential of pure quaternions does not stretch distances -/

theorem norm_exp_pure {a : Quaternion ℝ} (ha : a.re = 0) : ‖NormedSpace.exp a‖ = 1 := by
  rw [Quaternion.norm_exp, ha]
  simp

theorem pow_dist {u v : Quaternion ℝ} (hu : ‖u‖ = 1) (hv : ‖v‖ = 1) (n : ℕ) : ‖u ^ n - v ^ n‖ ≤ n * ‖u - v‖ := by
  induction n with
  | zero => simp
  | succ n ih =>
    have e : u ^ (n + 1) - v ^ (n + 1) = u * (u ^ n - v ^ n) + (u - v) * v ^ n := by
      rw [pow_succ', pow_succ' v]
      noncomm_ring
    rw [e]
    refine (norm_add_le _ _).trans ?_
    rw [norm_mul, norm_mul, norm_pow, hu, hv]
    push_cast
    simp only [one_pow, one_mul, mul_one]
    linarith

theorem exp_dist {a b : Quaternion ℝ} (ha : a.re = 0) (hb : b.re = 0) :
    ‖NormedSpace.exp a - NormedSpace.exp b‖ ≤ ‖a - b‖ := by
  have key : ∀ ε : ℝ, 0 < ε → ‖NormedSpace.exp a - NormedSpace.exp b‖ ≤ (1 + ε) * ‖a - b‖ := by
    intro ε hε
    have h := (hasStrictFDerivAt_exp_zero (𝕂 := ℝ) (𝔸 := Quaternion ℝ)).isLittleO.def hε
    have hlim : Filter.Tendsto (fun n : ℕ => ((1 / ((n : ℝ) + 1)) • a, (1 / ((n : ℝ) + 1)) • b)) Filter.atTop
        (nhds ((0 : Quaternion ℝ), (0 : Quaternion ℝ))) := by
      have h1 := tendsto_one_div_add_atTop_nhds_zero_nat (𝕜 := ℝ)
      have ha := h1.smul_const a
      have hb := h1.smul_const b
      rw [zero_smul] at ha hb
      exact ha.prodMk_nhds hb
    obtain ⟨n, hn⟩ := (hlim.eventually h).exists
    simp only [one_apply_eq_self] at hn
    set k : ℝ := 1 / ((n : ℝ) + 1) with hk
    have k0 : 0 < k := by positivity
    have k1 : ((n + 1 : ℕ) : ℝ) * k = 1 := by
      rw [hk]
      push_cast
      field_simp
    let +nondep : NormedAlgebra ℚ (Quaternion ℝ) := .restrictScalars ℚ ℝ _
    have ea : NormedSpace.exp a = NormedSpace.exp (k • a) ^ (n + 1) := by
      rw [← NormedSpace.exp_nsmul, ← Nat.cast_smul_eq_nsmul ℝ, smul_smul, k1, one_smul]
    have eb : NormedSpace.exp b = NormedSpace.exp (k • b) ^ (n + 1) := by
      rw [← NormedSpace.exp_nsmul, ← Nat.cast_smul_eq_nsmul ℝ, smul_smul, k1, one_smul]
    have hp := pow_dist (norm_exp_pure (a := k • a) (by simp [ha])) (norm_exp_pure (a := k • b) (by simp [hb])) (n + 1)
    rw [← ea, ← eb] at hp
    have e : ‖k • a - k • b‖ = k * ‖a - b‖ := by rw [← smul_sub, norm_smul, Real.norm_eq_abs, abs_of_pos k0]
    have hd : ‖NormedSpace.exp (k • a) - NormedSpace.exp (k • b)‖ ≤ (1 + ε) * (k * ‖a - b‖) := by
      have := norm_sub_norm_le (NormedSpace.exp (k • a) - NormedSpace.exp (k • b)) (k • a - k • b)
      rw [e] at this hn
      linarith
    calc _ ≤ ((n + 1 : ℕ) : ℝ) * ((1 + ε) * (k * ‖a - b‖)) := hp.trans (by gcongr)
      _ = (((n + 1 : ℕ) : ℝ) * k) * ((1 + ε) * ‖a - b‖) := by ring
      _ = _ := by rw [k1, one_mul]
  refine le_of_forall_pos_le_add fun δ hδ => ?_
  have h := key (δ / (‖a - b‖ + 1)) (by positivity)
  have : δ / (‖a - b‖ + 1) * ‖a - b‖ ≤ δ := by
    rw [div_mul_eq_mul_div, div_le_iff₀ (by positivity)]
    nlinarith [norm_nonneg (a - b)]
  linarith

variable {F : Type} [Scalar F] [R : Rounded F]

/-- The numbers that a configuration stands for. -/
noncomputable def GyrometerConfig.real (c : GyrometerConfig F) : GyrometerConfig ℝ where
  xScale := ⟪c.xScale⟫
  yScale := ⟪c.yScale⟫
  zScale := ⟪c.zScale⟫
  xy := ⟪c.xy⟫
  xz := ⟪c.xz⟫
  yx := ⟪c.yx⟫
  yz := ⟪c.yz⟫
  zx := ⟪c.zx⟫
  zy := ⟪c.zy⟫
  xBias := ⟪c.xBias⟫
  yBias := ⟪c.yBias⟫
  zBias := ⟪c.zBias⟫

/-- The exact calibrated rate for a raw sample. -/
noncomputable def GyrometerConfig.rateOf (c : GyrometerConfig F) (x : F × F × F) : Quaternion ℝ :=
  c.real.rate ⟪x.1⟫ ⟪x.2.1⟫ ⟪x.2.2⟫

/-- The exact attitude after turning with the exact rates of the samples, each for the time `τ`. -/
noncomputable def GyrometerConfig.path (c : GyrometerConfig F) (τ : ℝ) : Quaternion ℝ → List (F × F × F) → Quaternion ℝ
  | A, [] => A
  | A, x :: l => c.path τ (A * NormedSpace.exp ((τ / 2) • c.rateOf x)) l

/-- Feeding samples to the filter, one after the other. -/
def AR.feed : List (F × F × F) → Op AhrsError (AR F) Unit
  | [] => pure ()
  | x :: l => do
    AR.update x.1 x.2.1 x.2.2
    AR.feed l

/-- A raw sample within `B` of the biases. -/
def GyrometerConfig.Within (c : GyrometerConfig F) (B : ℝ) (x : F × F × F) : Prop :=
  (Finite x.1 ∧ Finite x.2.1 ∧ Finite x.2.2) ∧
    |⟪x.1⟫ - ⟪c.xBias⟫| ≤ B ∧ |⟪x.2.1⟫ - ⟪c.yBias⟫| ≤ B ∧ |⟪x.2.2⟫ - ⟪c.zBias⟫| ≤ B

/-- Coefficients up to `C`. -/
def GyrometerConfig.UpTo (c : GyrometerConfig F) (C : ℝ) : Prop :=
  ∀ k ∈ [c.xScale, c.yScale, c.zScale, c.xy, c.xz, c.yx, c.yz, c.zx, c.zy], |⟪k⟫| ≤ C

/-- A quaternion from two of its components. -/
theorem norm_three {x y z e : ℝ} (hx : |x| ≤ e) (hy : |y| ≤ e) (hz : |z| ≤ e) : ‖mkQ 0 x y z‖ ≤ 7 / 4 * e := by
  have he : 0 ≤ e := (abs_nonneg _).trans hx
  rw [norm_mkQ]
  refine Real.sqrt_le_iff.mpr ⟨by positivity, ?_⟩
  have c1 := sq_le_sq' (abs_le.mp hx).1 (abs_le.mp hx).2
  have c2 := sq_le_sq' (abs_le.mp hy).1 (abs_le.mp hy).2
  have c3 := sq_le_sq' (abs_le.mp hz).1 (abs_le.mp hz).2
  nlinarith

theorem sum_three {a b c D x y z M : ℝ} (ha : |a| ≤ M) (hb : |b| ≤ M) (hc : |c| ≤ M) (hx : |x| ≤ D) (hy : |y| ≤ D)
    (hz : |z| ≤ D) : |a * x| + |b * y| + |c * z| ≤ 3 * (M * D) := by
  rw [abs_mul, abs_mul, abs_mul]
  have hM : 0 ≤ M := (abs_nonneg _).trans ha
  have h1 : |a| * |x| ≤ M * D := by gcongr
  have h2 : |b| * |y| ≤ M * D := by gcongr
  have h3 : |c| * |z| ≤ M * D := by gcongr
  linarith

/-- What a configured gyrometer reads, in terms of the exact rate. -/
theorem GyrometerConfig.reads {c : GyrometerConfig F} {B C : ℝ} {x : F × F × F} {g : Gyrometer F}
    (hg : Gyrometer.Reachable g) (hc : Gyrometer.getConfig g = .ok c) (hx : c.Within B x) (hC : c.UpTo C)
    (h1 : B ≤ 2 ^ 126) (h2 : C ≤ 2 ^ 98) (h3 : C * B ≤ 2 ^ 60) :
    ∃ p q r, Gyrometer.Reads c x.1 x.2.1 x.2.2 p q r ∧
      ‖mkQ 0 ⟪p⟫ ⟪q⟫ ⟪r⟫ - c.rateOf x‖ ≤ 4 / 10 ^ 6 * (C * B) + 1 / 10 ^ 14 ∧ ‖c.rateOf x‖ ≤ 21 / 4 * (C * B) := by
  obtain ⟨⟨f1, f2, f3⟩, b1, b2, b3⟩ := hx
  obtain ⟨g', p, q, r, e, e1, e2, e3, a1, a2, a3⟩ := C81_gyr hg hc f1 f2 f3 b1 b2 b3 hC h1 h2 (h3.trans (by norm_num))
  refine ⟨p, q, r, ⟨g, g', hg, hc, e, e1, e2, e3⟩, ?_, ?_⟩
  all_goals
    simp only [UpTo, List.forall_mem_cons, List.not_mem_nil, false_imp_iff, implies_true, and_true] at hC
    obtain ⟨q1, q2, q3, q4, q5, q6, q7, q8, q9⟩ := hC
    have s1 := sum_three q1 q6 q8 b1 b2 b3
    have s2 := sum_three q4 q2 q9 b1 b2 b3
    have s3 := sum_three q5 q7 q3 b1 b2 b3
  · have tiny : (9 + 4 * C) / 2 ^ 150 ≤ 1 / 10 ^ 15 := by
      rw [div_le_iff₀ (by positivity)]
      norm_num at h2 ⊢
      linarith
    have bound : ∀ {y Y S : ℝ}, |y - Y| ≤ 11 / 2 ^ 24 * S + (9 + 4 * C) / 2 ^ 150 → S ≤ 3 * (C * B) →
        |y - Y| ≤ 33 / 2 ^ 24 * (C * B) + 1 / 10 ^ 15 := by
      intro y Y S h hS
      refine h.trans ?_
      norm_num at tiny ⊢
      linarith
    have hd : mkQ 0 ⟪p⟫ ⟪q⟫ ⟪r⟫ - c.rateOf x = mkQ 0 (⟪p⟫ - (c.rateOf x).imI) (⟪q⟫ - (c.rateOf x).imJ)
        (⟪r⟫ - (c.rateOf x).imK) := by
      ext <;> simp [rateOf, GyrometerConfig.rate]
    rw [hd]
    refine (norm_three (bound a1 s1) (bound a2 s2) (bound a3 s3)).trans ?_
    have : 0 ≤ C * B := mul_nonneg ((abs_nonneg _).trans q1) ((abs_nonneg _).trans b1)
    norm_num
    linarith
  · have bound : ∀ {a b c : ℝ}, |a| + |b| + |c| ≤ 3 * (C * B) → |a + b + c| ≤ 3 * (C * B) :=
      fun h => (abs_add_three _ _ _).trans h
    refine (norm_three (bound s1) (bound s2) (bound s3)).trans (le_of_eq ?_)
    ring

open AR
variable {s s' : AR F} {a : ARInit F}

theorem AR.Started.step (h : Started a s) (gx gy gz : F) : Started a (AR.update gx gy gz s).2 := by
  obtain ⟨s0, s1, h0, e, hl⟩ := h
  exact ⟨s0, s1, h0, e, .step (.update gx gy gz) hl⟩

/-- One sample. -/
theorem AR.track_step [Trig F] (hs : Started a s) (hm : a.method = .ClosedForm) (hts : Finite a.ts) {B C : ℝ}
    (hC : a.config.UpTo C) (h1 : B ≤ 2 ^ 126) (h2 : C ≤ 2 ^ 98) (h3 : C * B ≤ 2 ^ 60) (h4 : C * B * |⟪a.ts⟫| ≤ 300)
    (h5 : |⟪a.ts⟫| ≤ 10 ^ 6)
    {A : Quaternion ℝ} {E : ℝ}
    (hA : ShowsF s fun f => NearUnit f ∧ ‖qval f - A‖ ≤ E) {x : F × F × F} (hx : a.config.Within B x) :
    ∃ s', update x.1 x.2.1 x.2.2 s = (.ok (), s') ∧ Started a s' ∧ ShowsF s' fun f => NearUnit f ∧
      ‖qval f - A * NormedSpace.exp ((⟪a.ts⟫ / 2) • a.config.rateOf x)‖ ≤
        E + (15 / 10 ^ 6 + 51 / 10 ^ 6 * |⟪a.ts⟫| + 20 / 10 ^ 6 * (C * B * |⟪a.ts⟫|)) := by
  obtain ⟨⟨f, hf⟩, e1, e2, -, e4⟩ := hs.ready
  obtain ⟨hA1, hA2⟩ : NearUnit f ∧ ‖qval f - A‖ ≤ E := hA.ready hf fun f g h hf => by
    have : qval g = qval f := by
      unfold qval
      rw [h 0 (by omega), h 1 (by omega), h 2 (by omega), h 3 (by omega)]
    unfold NearUnit at hf ⊢
    rw [this]
    exact hf
  obtain ⟨p, q, r, hr, d1, d2⟩ := GyrometerConfig.reads hf.gyr e4 hx hC h1 h2 h3
  generalize hωd : a.config.rateOf x = ω at *
  have hω0 : ω.re = 0 := by rw [← hωd]; rfl
  have hu := abs_le.mp hA1
  have hCB : 0 ≤ C * B := by
    have := norm_nonneg ω
    nlinarith
  rw [← e1] at h4 h5 hts ⊢
  generalize hψd : mkQ 0 ⟪p⟫ ⟪q⟫ ⟪r⟫ = ψ at *
  have hψ0 : ψ.re = 0 := by rw [← hψd]; rfl
  have dψ : ‖ψ‖ ≤ 526 / 100 * (C * B) + 1 / 10 ^ 14 := by
    have := norm_sub_norm_le ψ ω
    norm_num at d1 ⊢
    linarith
  generalize hτ : |⟪s.ts⟫| = T at *
  have hT0 : 0 ≤ T := by rw [← hτ]; positivity
  have hturn : ‖ψ‖ * T ≤ 526 / 100 * (C * B * T) + 1 / 10 ^ 14 * T := by
    have := mul_le_mul_of_nonneg_right dψ hT0
    linarith
  have hcl := hf.closed (gx := x.1) (gy := x.2.1) (gz := x.2.2) (e2.trans hm) hts e4 hr
    (by norm_num at hu; linarith [hu.1]) (by norm_num at hu; linarith [hu.2])
    (by rw [hψd]; norm_num at h3 dψ ⊢; linarith) (by rw [hψd, hτ]; norm_num at h4 h5 hturn ⊢; linarith)
  rw [hψd, hτ] at hcl
  obtain ⟨k1, k2⟩ := hcl
  refine ⟨(update x.1 x.2.1 x.2.2 s).2, Prod.ext k1 rfl, hs.step _ _ _, ?_⟩
  -- the effect of the readings
  have hexp : ‖NormedSpace.exp ((⟪s.ts⟫ / 2) • ψ) - NormedSpace.exp ((⟪s.ts⟫ / 2) • ω)‖ ≤
      T / 2 * (4 / 10 ^ 6 * (C * B) + 1 / 10 ^ 14) := by
    refine (exp_dist (by simp [hψ0]) (by simp [hω0])).trans ?_
    rw [← smul_sub, norm_smul, Real.norm_eq_abs, abs_div, hτ]
    norm_num only [abs_two]
    norm_num at d1 ⊢
    gcongr
  -- the effect of the previous deviation
  have hprev : ∀ y : Quaternion ℝ, ‖y - A * NormedSpace.exp ((⟪s.ts⟫ / 2) • ω)‖ ≤
      ‖y - qval f * NormedSpace.exp ((⟪s.ts⟫ / 2) • ω)‖ + E := by
    intro y
    refine (norm_sub_le_norm_sub_add_norm_sub _ (qval f * NormedSpace.exp ((⟪s.ts⟫ / 2) • ω)) _).trans ?_
    gcongr
    rw [← sub_mul, norm_mul, norm_rotation hω0, mul_one]
    exact hA2
  have hstep : ∀ y : Quaternion ℝ, ‖y - qval f * NormedSpace.exp ((⟪s.ts⟫ / 2) • ω)‖ ≤
      ‖y - qval f * NormedSpace.exp ((⟪s.ts⟫ / 2) • ψ)‖ + 1001 / 1000 * (T / 2 * (4 / 10 ^ 6 * (C * B) + 1 / 10 ^ 14)) := by
    intro y
    refine (norm_sub_le_norm_sub_add_norm_sub _ (qval f * NormedSpace.exp ((⟪s.ts⟫ / 2) • ψ)) _).trans ?_
    gcongr
    rw [← mul_sub, norm_mul]
    refine mul_le_mul ?_ hexp (norm_nonneg _) (by norm_num)
    norm_num at hu ⊢
    linarith [hu.2]
  rcases k2 with ⟨k2, k3⟩ | ⟨-, f', k2, k3, k4⟩
  · -- the sample is below the threshold
    obtain ⟨f2, hf2⟩ := hf.update x.1 x.2.1 x.2.2
    obtain ⟨v, ev, hv⟩ := hf.getAttitude
    refine ⟨v, f, (getAttitude_congr k2 (hf2.initialized.trans hf.initialized.symm)).trans ev, hv, hf.finite, hA1, ?_⟩
    refine (hprev _).trans ?_
    have h := hstep (qval f)
    have h' : ‖qval f - qval f * NormedSpace.exp ((⟪s.ts⟫ / 2) • ψ)‖ ≤ 1001 / 1000 * (T / 2 * (10001 / 10 ^ 8)) := by
      have e : qval f - qval f * NormedSpace.exp ((⟪s.ts⟫ / 2) • ψ) =
          qval f * (NormedSpace.exp 0 - NormedSpace.exp ((⟪s.ts⟫ / 2) • ψ)) := by
        rw [NormedSpace.exp_zero, mul_sub, mul_one]
      rw [e, norm_mul]
      refine mul_le_mul ?_ ?_ (norm_nonneg _) (by norm_num)
      · norm_num at hu ⊢
        linarith [hu.2]
      · refine (exp_dist rfl (by simp [hψ0])).trans ?_
        rw [zero_sub, norm_neg, norm_smul, Real.norm_eq_abs, abs_div, hτ]
        norm_num only [abs_two]
        norm_num at k3 ⊢
        gcongr
    have hCBT : 0 ≤ C * B * T := by positivity
    norm_num at h h' ⊢
    linarith
  · refine k2.showsF ⟨k3, (hprev _).trans ?_⟩
    have h := hstep (qval f')
    have hn0 : 0 < ‖qval f‖ := by
      norm_num at hu
      linarith [hu.1]
    have h' : ‖(‖qval f‖⁻¹ • qval f) * NormedSpace.exp ((⟪s.ts⟫ / 2) • ψ) -
        qval f * NormedSpace.exp ((⟪s.ts⟫ / 2) • ψ)‖ ≤ 1 / 10 ^ 6 := by
      rw [← sub_mul, norm_mul, norm_rotation hψ0, mul_one,
        show ‖qval f‖⁻¹ • qval f - qval f = (‖qval f‖⁻¹ - 1) • qval f by rw [sub_smul, one_smul],
        norm_smul, Real.norm_eq_abs]
      have : |‖qval f‖⁻¹ - 1| * ‖qval f‖ = |1 - ‖qval f‖| := by
        rw [show ‖qval f‖⁻¹ - 1 = (1 - ‖qval f‖) / ‖qval f‖ by field_simp, abs_div, abs_of_pos hn0]
        field_simp
      rw [this, abs_sub_comm]
      exact hA1
    have h2 := norm_sub_le_norm_sub_add_norm_sub (qval f') ((‖qval f‖⁻¹ • qval f) * NormedSpace.exp ((⟪s.ts⟫ / 2) • ψ))
      (qval f * NormedSpace.exp ((⟪s.ts⟫ / 2) • ψ))
    have hCBT : 0 ≤ C * B * T := by positivity
    norm_num at h h' k4 h2 hturn ⊢
    linarith

/-- C83: the closed form in binary32 tracks the exact rotation: started within `E` of a unit quaternion `A`, fed with
any list of finite samples that are within `B` of the biases (calibration coefficients up to `C`), every update
succeeds, and after `k` samples the attitude has norm 1 up to one in a million and is within
`E + k · (1.5e-5 + 5.1e-5 |τ| + 2e-5 C B |τ|)` of the exact attitude. -/
theorem C83_track [Trig F] (hs : Started a s) (hm : a.method = .ClosedForm) (hts : Finite a.ts) {B C : ℝ}
    (hC : a.config.UpTo C) (h1 : B ≤ 2 ^ 126) (h2 : C ≤ 2 ^ 98) (h3 : C * B ≤ 2 ^ 60) (h4 : C * B * |⟪a.ts⟫| ≤ 300)
    (h5 : |⟪a.ts⟫| ≤ 10 ^ 6) {A : Quaternion ℝ} {E : ℝ}
    (hA : ShowsF s fun f => NearUnit f ∧ ‖qval f - A‖ ≤ E) (l : List (F × F × F))
    (hl : ∀ x ∈ l, a.config.Within B x) :
    ∃ s', feed l s = (.ok (), s') ∧ Started a s' ∧ ShowsF s' fun f => NearUnit f ∧
      ‖qval f - a.config.path ⟪a.ts⟫ A l‖ ≤
        E + l.length * (15 / 10 ^ 6 + 51 / 10 ^ 6 * |⟪a.ts⟫| + 20 / 10 ^ 6 * (C * B * |⟪a.ts⟫|)) := by
  induction l generalizing s A E with
  | nil => exact ⟨s, rfl, hs, by simpa [GyrometerConfig.path] using hA⟩
  | cons x l ih =>
    obtain ⟨s1, e1, k1, k2⟩ := track_step hs hm hts hC h1 h2 h3 h4 h5 hA (hl x (by simp))
    obtain ⟨s2, e2, k3, k4⟩ := ih k1 k2 fun y hy => hl y (by simp [hy])
    refine ⟨s2, ?_, k3, ?_⟩
    · unfold feed
      rw [Op.bind_ok e1]
      exact e2
    · obtain ⟨v, f, a1, a2, a3, a4, a5⟩ := k4
      refine ⟨v, f, a1, a2, a3, a4, ?_⟩
      rw [GyrometerConfig.path]
      refine a5.trans (le_of_eq ?_)
      rw [List.length_cons]
      push_cast
      ring

/-! ### binary32 with accurate `sinf` and `cosf`, and a concrete case -/

/-- A rational number close to a real one, rounded to binary32. -/
noncomputable def F32.ofReal (y : ℝ) : F32 :=
  fl (.fin (Classical.choose (exists_rat_btwn (show y < y + 1 / 2 ^ 30 by linarith [show (0 : ℝ) < 1 / 2 ^ 30 by positivity]))))

theorem F32.ofReal_near {y : ℝ} (hy : |y| ≤ 1) : Finite (ofReal y) ∧ |toReal (ofReal y) - y| ≤ 1 / 2 ^ 22 := by
  unfold ofReal
  generalize_proofs h
  obtain ⟨h1, h2⟩ := Classical.choose_spec h
  generalize Classical.choose h = q at *
  have hd : |(q : ℝ) - y| ≤ 1 / 2 ^ 30 := by rw [abs_le]; constructor <;> linarith
  have hq := le_of_dist hy hd
  obtain ⟨k1, k2, -⟩ := fl_fin q
  have hf := k2 (by norm_num at hq ⊢; linarith)
  have hn := (k1 hf).1.bound
  have hη := rη_le
  refine ⟨hf, (dist_trans hn hd).trans ?_⟩
  norm_num at hq hη ⊢
  linarith

/-- binary32 with such functions. -/
def F32T : Type := F32

noncomputable instance : Scalar F32T :=
  F32.withLibm (fun x => if Finite x then F32.ofReal (Real.sin x.toReal) else ⟨.nan⟩)
    (fun x => if Finite x then F32.ofReal (Real.cos x.toReal) else ⟨.nan⟩)
    Scalar.acos Scalar.asin Scalar.exp Scalar.atan2 Scalar.pow
noncomputable instance : Rounded F32T := F32.withLibm_rounded ..

instance : Trig F32T where
  cos_finite {x} hx := by
    show Finite (if Finite (x : F32) then F32.ofReal (Real.cos (F32.toReal x)) else ⟨.nan⟩)
    rw [if_pos hx]
    exact (F32.ofReal_near (Real.abs_cos_le_one _)).1
  sin_finite {x} hx := by
    show Finite (if Finite (x : F32) then F32.ofReal (Real.sin (F32.toReal x)) else ⟨.nan⟩)
    rw [if_pos hx]
    exact (F32.ofReal_near (Real.abs_sin_le_one _)).1
  cos_near {x} hx := by
    show |F32.toReal (if Finite (x : F32) then F32.ofReal (Real.cos (F32.toReal x)) else ⟨.nan⟩) -
      Real.cos (F32.toReal x)| ≤ _
    rw [if_pos hx]
    exact (F32.ofReal_near (Real.abs_cos_le_one _)).2
  sin_near {x} hx := by
    show |F32.toReal (if Finite (x : F32) then F32.ofReal (Real.sin (F32.toReal x)) else ⟨.nan⟩) -
      Real.sin (F32.toReal x)| ≤ _
    rw [if_pos hx]
    exact (F32.ofReal_near (Real.abs_sin_le_one _)).2

/-- The arguments of an `init` with the identity as attitude, unit calibration and 100 samples per second. -/
noncomputable def AR.plainT : ARInit F32T where
  qw := lit 1
  qx := lit 0
  qy := lit 0
  qz := lit 0
  config := .default
  ts := lit (1 / 100)
  method := .ClosedForm
  order := 1

theorem F32T.val_lit {k : ℚ} (hk : F32.fl (.fin k) = ⟨.fin k⟩) : ⟪(lit k : F32T)⟫ = (k : ℝ) := Verif.val_lit hk

theorem AR.plainT_ts : Finite (lit (1 / 100) : F32T) ∧ |⟪(lit (1 / 100) : F32T)⟫| ≤ 11 / 1000 := by
  have e : (lit (1 / 100) : F32) = ⟨.fin (10737418 / 1073741824)⟩ := by decide +kernel
  refine ⟨show Finite (lit (1 / 100) : F32) by decide +kernel, ?_⟩
  show |F32.toReal (lit (1 / 100) : F32)| ≤ _
  rw [e, F32.toReal_fin]
  norm_num [abs_le]

theorem AR.plainT_started : ∃ s, Started plainT s ∧ ShowsF s fun f => NearUnit f ∧ ‖qval f - 1‖ ≤ 0 := by
  obtain ⟨s0, e0, -⟩ := AR.new_fresh (F := F32T)
  have h := (C46_iff (a := AR.plainT) e0).mpr (by
    show _ ∧ Finite (lit 1 : F32) ∧ Finite (lit 0 : F32) ∧ Finite (lit 0 : F32) ∧ Finite (lit 0 : F32)
    refine ⟨?_, by decide +kernel⟩
    show ∀ x ∈ (GyrometerConfig.default : GyrometerConfig F32).params, Finite x
    decide +kernel)
  have hs : AR.Started AR.plainT (AR.initWith AR.plainT s0).2 :=
    ⟨s0, _, ⟨s0, e0, .refl _⟩, Prod.ext h rfl, .refl _⟩
  refine ⟨_, hs, ?_⟩
  obtain ⟨v, e1, hv⟩ := C46_attitude ⟨s0, e0, .refl _⟩ (Prod.ext h rfl : AR.initWith AR.plainT s0 = (.ok (), _))
  have hq : qval (seq4 plainT.qw plainT.qx plainT.qy plainT.qz) = 1 := by
    show mkQ ⟪(lit 1 : F32T)⟫ ⟪(lit 0 : F32T)⟫ ⟪(lit 0 : F32T)⟫ ⟪(lit 0 : F32T)⟫ = 1
    rw [Rounded.one_val, Rounded.zero_val]
    rfl
  refine ⟨v, _, e1, hv, ?_, ?_, ?_⟩
  · exact forall_lt_four.mpr ⟨Rounded.one_finite, Rounded.zero_finite, Rounded.zero_finite, Rounded.zero_finite⟩
  · unfold NearUnit
    rw [hq]
    simp
  · rw [hq]
    simp

/-- The hypotheses of `C82_step` hold for it and the sample (1, 0, 0). -/
example : ∃ s s' ω, Started plainT s ∧ update (lit 1) (lit 0) (lit 0) s = (.ok (), s') ∧
    ‖ω - mkQ 0 1 0 0‖ ≤ 1 / 10 ^ 5 ∧
    ShowsF s' fun f => NearUnit f ∧ ‖qval f - NormedSpace.exp ((⟪plainT.ts⟫ / 2) • ω)‖ ≤ 15 / 10 ^ 6 := by
  obtain ⟨s, hs, hA⟩ := plainT_started
  have v0 := Rounded.zero_val (F := F32T)
  have v1 := Rounded.one_val (F := F32T)
  have w0 := Rounded.zero_finite (F := F32T)
  have w1 := Rounded.one_finite (F := F32T)
  obtain ⟨t1, t2⟩ := plainT_ts
  obtain ⟨⟨f, hf⟩, -, -, -, e4⟩ := hs.ready
  have b0 : ⟪plainT.config.xBias⟫ = 0 ∧ ⟪plainT.config.yBias⟫ = 0 ∧ ⟪plainT.config.zBias⟫ = 0 := ⟨v0, v0, v0⟩
  obtain ⟨p, q, r, hr, d, -⟩ := GyrometerConfig.reads (x := (lit 1, lit 0, lit 0)) (B := 1) (C := 1) hf.gyr e4 (by
      unfold GyrometerConfig.Within
      rw [b0.1, b0.2.1, b0.2.2]
      simp [v0, v1, w0, w1]) (by
      intro k hk
      have : k = lit 1 ∨ k = lit 0 := by
        simp [plainT, GyrometerConfig.default] at hk
        tauto
      rcases this with rfl | rfl
      · rw [v1]; norm_num
      · rw [v0]; norm_num) (by norm_num) (by norm_num) (by norm_num)
  have e : plainT.config.rateOf (lit 1, lit 0, lit 0) = mkQ 0 1 0 0 := by
    simp only [GyrometerConfig.rateOf, GyrometerConfig.real, GyrometerConfig.rate, plainT, GyrometerConfig.default, v0, v1]
    norm_num
  rw [e] at d
  have n1 : ‖mkQ (0 : ℝ) 1 0 0‖ = 1 := by rw [norm_mkQ]; norm_num
  have d' := abs_le.mp ((abs_norm_sub_norm_le _ _).trans d)
  rw [n1] at d'
  have hone : ‖(1 : Quaternion ℝ)‖ = 1 := norm_one
  have hA' : ShowsF s fun f => qval f = 1 := by
    obtain ⟨v, f, a1, a2, a3, -, a4⟩ := hA
    exact ⟨v, f, a1, a2, a3, sub_eq_zero.mp (norm_eq_zero.mp (le_antisymm a4 (norm_nonneg _)))⟩
  have hts : |⟪plainT.ts⟫| ≤ 11 / 1000 := t2
  have hn : ‖mkQ 0 ⟪p⟫ ⟪q⟫ ⟪r⟫‖ ≤ 2 := by
    norm_num at d'
    linarith [d'.2]
  have hturn : ‖mkQ 0 ⟪p⟫ ⟪q⟫ ⟪r⟫‖ * |⟪plainT.ts⟫| ≤ 2 * (11 / 1000) := by gcongr
  obtain ⟨s', k1, k2⟩ := C82_step hs rfl t1 hA' (by rw [hone]; norm_num) (by rw [hone]; norm_num) hr rfl
    (by norm_num at d' ⊢; linarith [d'.1]) (by norm_num; linarith) (by linarith)
  refine ⟨s, s', _, hs, k1, d.trans (by norm_num), ?_⟩
  obtain ⟨v, f, a1, a2, a3, a4, a5⟩ := k2
  rw [hone, inv_one, one_smul, one_mul] at a5
  refine ⟨v, f, a1, a2, a3, a4, a5.trans ?_⟩
  norm_num
  linarith

/-- The hypotheses of `C83_track` hold for it and the samples (1, 0, 0) and (0, 2, 0) in turn, 100 times. -/
example : ∃ s s', Started plainT s ∧
    feed ((List.replicate 100 [((lit 1, lit 0, lit 0) : F32T × F32T × F32T), (lit 0, lit 2, lit 0)]).flatten) s =
      (.ok (), s') ∧
    ShowsF s' fun f => NearUnit f ∧
      ‖qval f - plainT.config.path ⟪plainT.ts⟫ 1
        ((List.replicate 100 [((lit 1, lit 0, lit 0) : F32T × F32T × F32T), (lit 0, lit 2, lit 0)]).flatten)‖ ≤ 4 / 1000 := by
  obtain ⟨s, hs, hA⟩ := plainT_started
  have v0 := Rounded.zero_val (F := F32T)
  have v1 := Rounded.one_val (F := F32T)
  have v2 := Rounded.two_val (F := F32T)
  have w0 := Rounded.zero_finite (F := F32T)
  have w1 := Rounded.one_finite (F := F32T)
  have w2 := Rounded.two_finite (F := F32T)
  obtain ⟨t1, t2⟩ := plainT_ts
  obtain ⟨s', k1, -, k2⟩ := C83_track (B := 2) (C := 1) hs rfl t1 (by
      intro k hk
      have : k = lit 1 ∨ k = lit 0 := by
        simp [plainT, GyrometerConfig.default] at hk
        tauto
      rcases this with rfl | rfl
      · rw [v1]; norm_num
      · rw [v0]; norm_num)
    (by norm_num) (by norm_num) (by norm_num)
    (by
      show 1 * 2 * |⟪(lit (1 / 100) : F32T)⟫| ≤ 300
      linarith)
    (by
      show |⟪(lit (1 / 100) : F32T)⟫| ≤ 10 ^ 6
      refine t2.trans ?_
      norm_num)
    hA ((List.replicate 100 [((lit 1, lit 0, lit 0) : F32T × F32T × F32T), (lit 0, lit 2, lit 0)]).flatten) (by
      intro x hx
      have hx' : x = (lit 1, lit 0, lit 0) ∨ x = (lit 0, lit 2, lit 0) := by
        rw [List.mem_flatten] at hx
        obtain ⟨l, hl, hx⟩ := hx
        rw [(List.mem_replicate.mp hl).2] at hx
        simpa using hx
      have b0 : ⟪plainT.config.xBias⟫ = 0 ∧ ⟪plainT.config.yBias⟫ = 0 ∧ ⟪plainT.config.zBias⟫ = 0 := ⟨v0, v0, v0⟩
      unfold GyrometerConfig.Within
      rw [b0.1, b0.2.1, b0.2.2]
      rcases hx' with rfl | rfl
      · simp [v0, v1, w0, w1]
      · simp [v0, v2, w0, w2])
  refine ⟨s, s', hs, k1, ?_⟩
  obtain ⟨v, f, a1, a2, a3, a4, a5⟩ := k2
  refine ⟨v, f, a1, a2, a3, a4, a5.trans ?_⟩
  have hlen : ((List.replicate 100 [((lit 1, lit 0, lit 0) : F32T × F32T × F32T), (lit 0, lit 2, lit 0)]).flatten).length =
      200 := by
    rw [List.length_flatten, List.map_replicate, List.sum_replicate]
    rfl
  rw [hlen, show plainT.ts = lit (1 / 100) from rfl]
  norm_num
  linarith

end Verif
