import Verif.Props.RoundedArTaylor

/-
Motions that are undone, in binary32: the closed form, Euler's method and the series of order 1 come back to the first
attitude up to rounding, and the series of a higher order does not (C137).
-/

set_option linter.unusedSectionVars false
set_option linter.unusedSimpArgs false

namespace Verif
open Scalar AR Finset

variable {F : Type} [Scalar F] [R : Rounded F]

/-- The sequences of samples in which every rotation is undone by a later one about the same axis, like brackets: shaking
about one axis, a motion followed by the same motion backwards, and sequences and nestings of these. -/
inductive GyrometerConfig.Undone (c : GyrometerConfig F) : List (F × F × F) → Prop
  | nil : c.Undone []
  | wrap {x y : F × F × F} {l : List (F × F × F)} : c.rateOf y = -c.rateOf x → c.Undone l → c.Undone (x :: (l ++ [y]))
  | append {l m : List (F × F × F)} : c.Undone l → c.Undone m → c.Undone (l ++ m)

variable {c : GyrometerConfig F}

theorem GyrometerConfig.path_append (τ : ℝ) (A : Quaternion ℝ) (l m : List (F × F × F)) :
    c.path τ A (l ++ m) = c.path τ (c.path τ A l) m := by
  induction l generalizing A with
  | nil => rfl
  | cons x l ih => exact ih _

theorem GyrometerConfig.walk_append (S : Quaternion ℝ → Quaternion ℝ) (τ : ℝ) (A : Quaternion ℝ) (l m : List (F × F × F)) :
    c.walk S τ A (l ++ m) = c.walk S τ (c.walk S τ A l) m := by
  induction l generalizing A with
  | nil => rfl
  | cons x l ih => exact ih _

/-- The exact rotations of such a sequence cancel. -/
theorem GyrometerConfig.Undone.path {l : List (F × F × F)} (h : c.Undone l) (τ : ℝ) (A : Quaternion ℝ) : c.path τ A l = A := by
  induction h generalizing A with
  | nil => rfl
  | @wrap x y l hxy _ ih =>
    have : c.path τ A (x :: (l ++ [y])) = A * NormedSpace.exp ((τ / 2) • c.rateOf x) * NormedSpace.exp ((τ / 2) • c.rateOf y) := by
      show c.path τ (A * NormedSpace.exp ((τ / 2) • c.rateOf x)) (l ++ [y]) = _
      rw [GyrometerConfig.path_append, ih]
      rfl
    rw [this, hxy, smul_neg, mul_assoc]
    let _ : NormedAlgebra ℚ (Quaternion ℝ) := .restrictScalars ℚ ℝ (Quaternion ℝ)
    rw [NormedSpace.exp_neg, mul_inv_cancel₀, mul_one]
    intro h0
    have := norm_rotation (ω := c.rateOf x) rfl τ
    rw [h0, norm_zero] at this
    exact zero_ne_one this
  | append _ _ ih1 ih2 => rw [GyrometerConfig.path_append, ih1, ih2]

/-- So do the exact steps of Euler's method. -/
theorem GyrometerConfig.Undone.walk {l : List (F × F × F)} (h : c.Undone l) (τ : ℝ) (A : Quaternion ℝ) :
    c.walk (fun v => ‖1 + v‖⁻¹ • (1 + v)) τ A l = A := by
  induction h generalizing A with
  | nil => rfl
  | @wrap x y l hxy _ ih =>
    obtain ⟨v, hv⟩ : ∃ v, v = (τ / 2) • c.rateOf x := ⟨_, rfl⟩
    have hv0 : v.re = 0 := by rw [hv, Quaternion.re_smul]; simp [show (c.rateOf x).re = 0 from rfl]
    have : c.walk (fun v => ‖1 + v‖⁻¹ • (1 + v)) τ A (x :: (l ++ [y])) =
        (‖1 + -v‖⁻¹ • (1 + -v)) * ((‖1 + v‖⁻¹ • (1 + v)) * A) := by
      show c.walk _ τ ((‖1 + (τ / 2) • c.rateOf x‖⁻¹ • (1 + (τ / 2) • c.rateOf x)) * A) (l ++ [y]) = _
      rw [GyrometerConfig.walk_append, ih]
      show (‖1 + (τ / 2) • c.rateOf y‖⁻¹ • (1 + (τ / 2) • c.rateOf y)) * _ = _
      rw [hxy, smul_neg, ← hv]
    have hst : 1 + -v = star (1 + v) := by
      apply Quaternion.ext <;> simp [hv0]
    have n1 := one_le_norm hv0
    rw [this, hst, norm_star, ← mul_assoc, smul_mul_assoc, mul_smul_comm, Quaternion.star_mul_self,
      Quaternion.normSq_eq_norm_mul_self, smul_smul, ← Quaternion.coe_smul, smul_eq_mul]
    rw [show ‖1 + v‖⁻¹ * ‖1 + v‖⁻¹ * (‖1 + v‖ * ‖1 + v‖) = 1 by field_simp]
    rw [Quaternion.coe_one, one_mul]
  | append _ _ ih1 ih2 => rw [GyrometerConfig.walk_append, ih1, ih2]

namespace AR
variable {a : ARInit F} {s : AR F}

/-- C137: with the closed form in binary32, a motion that is undone leaves the attitude where it was, up to
`1.5e-5 + 5.1e-5 |τ| + 2e-5 C B |τ|` for each sample. -/
theorem C137_closed [Trig F] (hs : Started a s) (hm : a.method = .ClosedForm) (hts : Finite a.ts) {B C : ℝ}
    (hC : a.config.UpTo C) (h1 : B ≤ 2 ^ 126) (h2 : C ≤ 2 ^ 98) (h3 : C * B ≤ 2 ^ 60) (h4 : C * B * |⟪a.ts⟫| ≤ 300)
    (h5 : |⟪a.ts⟫| ≤ 10 ^ 6) {A : Quaternion ℝ} {E : ℝ}
    (hA : ShowsF s fun f => NearUnit f ∧ ‖qval f - A‖ ≤ E) (l : List (F × F × F))
    (hl : ∀ x ∈ l, a.config.Within B x) (hu : a.config.Undone l) :
    ∃ s', feed l s = (.ok (), s') ∧ ShowsF s' fun f => NearUnit f ∧ ‖qval f - A‖ ≤
        E + l.length * (15 / 10 ^ 6 + 51 / 10 ^ 6 * |⟪a.ts⟫| + 20 / 10 ^ 6 * (C * B * |⟪a.ts⟫|)) := by
  obtain ⟨s', e, -, k⟩ := C83_track hs hm hts hC h1 h2 h3 h4 h5 hA l hl
  rw [hu.path] at k
  exact ⟨s', e, k⟩

/-- C137: the same with Euler's method, whose own error cancels. -/
theorem C137_euler [Halves F] (hs : Started a s) (hm : a.method = .Euler) (hts : Finite a.ts) {B C : ℝ}
    (hC : a.config.UpTo C) (h1 : B ≤ 2 ^ 126) (h2 : C ≤ 2 ^ 98) (h3 : C * B ≤ 2 ^ 60) (h4 : C * B * |⟪a.ts⟫| ≤ 2 ^ 57)
    (h5 : |⟪a.ts⟫| ≤ 2 ^ 57) {A : Quaternion ℝ} {E : ℝ}
    (hA : ShowsF s fun f => NearUnit f ∧ ‖qval f - A‖ ≤ E) (l : List (F × F × F))
    (hl : ∀ x ∈ l, a.config.Within B x) (hu : a.config.Undone l) :
    ∃ s', feed l s = (.ok (), s') ∧ ShowsF s' fun f => NearUnit f ∧ ‖qval f - A‖ ≤
        E + l.length * (7 / 10 ^ 6 + 101 / 10 ^ 6 * |⟪a.ts⟫| + 5 / 10 ^ 6 * (C * B * |⟪a.ts⟫|)) := by
  obtain ⟨s', e, -, k⟩ := C106_track hs hm hts hC h1 h2 h3 h4 h5 hA l hl
  rw [hu.walk] at k
  exact ⟨s', e, k⟩

/-- C137: the same with the series of order 1, for half turns of at most `h`. -/
theorem C137_first [Powers F] [Literals F] [Halves F] (hs : Started a s) (hm : a.method = .TaylorSeries)
    (ho : a.order = 1) (hts : Finite a.ts) {B C h : ℝ}
    (hC : a.config.UpTo C) (h1 : B ≤ 2 ^ 126) (h2 : C ≤ 2 ^ 98) (h3 : C * B ≤ 2 ^ 60) (h4 : C * B * |⟪a.ts⟫| ≤ 100)
    (h5 : |⟪a.ts⟫| ≤ 10 ^ 6) (hh : h ≤ 49 / 100) {A : Quaternion ℝ} {E : ℝ}
    (hA : ShowsF s fun f => NearUnit f ∧ ‖qval f - A‖ ≤ E) (l : List (F × F × F))
    (hl : ∀ x ∈ l, a.config.Within B x ∧ ‖(⟪a.ts⟫ / 2) • a.config.rateOf x‖ ≤ h) (hu : a.config.Undone l) :
    ∃ s', feed l s = (.ok (), s') ∧ ShowsF s' fun f => NearUnit f ∧ ‖qval f - A‖ ≤
        E + l.length * (84 / 10 ^ 7 + 6 / 10 ^ 5 * h + 51 / 10 ^ 6 * |⟪a.ts⟫| + 9 / 10 ^ 6 * (C * B * |⟪a.ts⟫|) +
          34 / 100 * h ^ 3) := by
  obtain ⟨s', e, -, k⟩ := C114_track hs hm ho.ge (by omega) hts hC h1 h2 h3 h4 h5 hh hA l hl
  rw [hu.path, ho, if_pos rfl] at k
  refine ⟨s', e, ?_⟩
  obtain ⟨v, f, a1, a2, a3, a4, a5⟩ := k
  refine ⟨v, f, a1, a2, a3, a4, a5.trans (le_of_eq ?_)⟩
  push_cast
  ring

set_option maxHeartbeats 1000000 in
/-- C137: the series of order 2 to 20 in binary32 does not come back: from the identity, a sample with the rate `P` about the
first axis and one with the rate `-P` are both accepted, and with `t = P τ / 2` between 1/50 and 1/2 the attitude has
turned about that axis, its second component being at least `t² / 3 - 1e-4`, which is positive. -/
theorem C137_drift [Powers F] [Literals F] [Halves F] (hs : Started a s) (hm : a.method = .TaylorSeries)
    (ho : 2 ≤ a.order ∧ a.order ≤ 20) (hts : Finite a.ts) (hA : ShowsF s fun f => qval f = 1)
    {x y : F × F × F} {P t : ℝ} {u v w u' v' w' : F}
    (hr : Gyrometer.Reads a.config x.1 x.2.1 x.2.2 u v w) (hr' : Gyrometer.Reads a.config y.1 y.2.1 y.2.2 u' v' w')
    (hu : ⟪u⟫ = P ∧ ⟪v⟫ = 0 ∧ ⟪w⟫ = 0) (hu' : ⟪u'⟫ = -P ∧ ⟪v'⟫ = 0 ∧ ⟪w'⟫ = 0)
    (hlo : 10001 / 10 ^ 8 < |P|) (hhi : |P| ≤ 2 ^ 63) (hb : |⟪a.ts⟫| ≤ 2 ^ 100) (ht : t = P * (⟪a.ts⟫ / 2)) (t0 : 1 / 50 ≤ t)
    (t1 : t ≤ 1 / 2) :
    ∃ s', feed [x, y] s = (.ok (), s') ∧ ShowsF s' fun f => NearUnit f ∧ t ^ 2 / 3 - 1 / 10 ^ 4 ≤ (qval f).imI ∧
      0 < (qval f).imI := by
  obtain ⟨o1, o2⟩ := ho
  have on : (a.order : ℝ) ≤ 20 := by exact_mod_cast o2
  have on0 : (0 : ℝ) ≤ a.order := by positivity
  have ht2 : 1 / 2500 ≤ t ^ 2 := by nlinarith
  have ht3 : t ^ 2 ≤ 1 / 4 := by nlinarith
  have nP : ‖mkQ 0 P 0 0‖ = |P| := by
    rw [norm_mkQ, ← Real.sqrt_sq_eq_abs]; congr 1; ring
  have nP' : ‖mkQ 0 (-P) 0 0‖ = |P| := by
    rw [norm_mkQ, ← Real.sqrt_sq_eq_abs]; congr 1; ring
  have hPt : |P| * |⟪a.ts⟫| = 2 * t := by
    rw [← abs_mul, show P * ⟪a.ts⟫ = 2 * t by rw [ht]; ring, abs_of_pos (by linarith)]
  have hz : AR.tail a.order 0 = 0 := AR.tail_zero _
  obtain ⟨f, hf⟩ : ∃ f, f = AR.tail a.order t := ⟨_, rfl⟩
  obtain ⟨g, hg⟩ : ∃ g, g = AR.tail a.order (-t) := ⟨_, rfl⟩
  have bf : |f| ≤ 86 / 100 := by
    rw [hf]
    refine (tail_size o2 (X := 1 / 2) (by rw [abs_of_pos (by linarith)]; exact t1) (by norm_num)).trans (by norm_num)
  have bg : |g| ≤ 86 / 100 := by
    rw [hg]
    refine (tail_size o2 (X := 1 / 2) (by rw [abs_neg, abs_of_pos (by linarith)]; exact t1) (by norm_num)).trans (by norm_num)
  have hfg : t ^ 2 ≤ f + g := by
    rw [hf, hg]
    exact AR.tail_even _ o1 t
  have herr : 66 / 10 ^ 7 + 38 / 10 ^ 8 * (a.order : ℝ) + (29 / 10 ^ 6 + 14 / 10 ^ 7 * a.order) * (2 * t / 2) ≤ 43 / 10 ^ 6 := by
    have h2 : (29 / 10 ^ 6 + 14 / 10 ^ 7 * (a.order : ℝ)) * (2 * t / 2) ≤ (29 / 10 ^ 6 + 14 / 10 ^ 7 * 20) * (1 / 2) := by
      refine mul_le_mul (by linarith) (by linarith) (by linarith) (by norm_num)
    norm_num at h2 ⊢
    linarith
  have hsm : ∀ Q : ℝ, (⟪a.ts⟫ / 2) • mkQ 0 Q 0 0 = mkQ 0 (Q * (⟪a.ts⟫ / 2)) 0 0 := fun Q => by
    rw [mkQ_smul]; simp [mul_comm]
  -- the first sample
  obtain ⟨s1, e1, v1, f1, a1, a2, a3, a4, a5⟩ := C114_step hs hm (by omega) o2 hts hA (by simp; norm_num) (by simp) hr
    (ω := mkQ 0 P 0 0) (by rw [hu.1, hu.2.1, hu.2.2]) (by rw [nP]; exact hlo) (by rw [nP]; exact hhi)
    (by rw [nP, hPt]; linarith) hb rfl (T := fun k l => _) (fun _ _ => rfl) rfl rfl
  rw [series_matrix rfl (fun _ _ => rfl) rfl, hu.1, hu.2.1, hu.2.2, hsm, ← ht, nP, hPt] at a5
  have hY1 : seriesStep a.order (mkQ 0 t 0 0) 1 = mkQ 1 f 0 0 := by
    rw [← mkQ_one]
    unfold seriesStep
    simp [mkQ, hz, ← hf]
    rfl
  rw [hY1] at a5
  replace a5 := a5.trans herr
  -- the second sample
  obtain ⟨n1, n2⟩ := abs_le.mp a4
  norm_num at n1 n2
  have hs1 : Started a s1 := by
    have := hs.step x.1 x.2.1 x.2.2
    rwa [e1] at this
  obtain ⟨s2, e2, v2, f2, b1, b2, b3, b4, b5⟩ := C114_step hs1 hm (by omega) o2 hts (A := qval f1) ⟨v1, f1, a1, a2, a3, rfl⟩
    (by linarith) (by linarith) hr'
    (ω := mkQ 0 (-P) 0 0) (by rw [hu'.1, hu'.2.1, hu'.2.2]) (by rw [nP']; exact hlo) (by rw [nP']; exact hhi)
    (by rw [nP', hPt]; linarith) hb rfl (T := fun k l => _) (fun _ _ => rfl) rfl rfl
  rw [series_matrix rfl (fun _ _ => rfl) rfl, hu'.1, hu'.2.1, hu'.2.2, hsm, neg_mul, ← ht, nP', hPt] at b5
  replace b5 := b5.trans herr
  obtain ⟨Y, hY⟩ : ∃ Y, Y = seriesStep a.order (mkQ 0 (-t) 0 0) (qval f1) := ⟨_, rfl⟩
  rw [← hY] at b5
  have hYi : Y.imI = g * (qval f1).re + (qval f1).imI := by
    rw [hY]
    unfold seriesStep
    simp [mkQ, hz, ← hg]
  have hYn : ‖Y‖ ≤ 187 / 100 := by
    have k1 := series_first (N := a.order) (by omega) o2 (v := mkQ 0 (-t) 0 0) (A := qval f1) rfl (by
      rw [norm_mkQ, show (0 : ℝ) ^ 2 + (-t) ^ 2 + 0 ^ 2 + 0 ^ 2 = t ^ 2 by ring, Real.sqrt_sq (by linarith)]
      linarith)
    have k2 : ‖mkQ 0 (-t) 0 0‖ = t := by
      rw [norm_mkQ, show (0 : ℝ) ^ 2 + (-t) ^ 2 + 0 ^ 2 + 0 ^ 2 = t ^ 2 by ring, Real.sqrt_sq (by linarith)]
    rw [← hY, k2] at k1
    have k3 : ‖qval f1 * (1 + mkQ 0 (-t) 0 0)‖ ≤ 1000001 / 1000000 * (3 / 2) := by
      rw [norm_mul]
      refine mul_le_mul (by linarith) ((norm_add_le _ _).trans ?_) (norm_nonneg _) (by norm_num)
      rw [k2, norm_one]
      linarith
    have k4 : 144 / 100 * t ^ 2 * ‖qval f1‖ ≤ 144 / 100 * (1 / 4) * (1000001 / 1000000) := by
      refine mul_le_mul ?_ (by linarith) (norm_nonneg _) (by norm_num)
      linarith
    have k5 := norm_sub_norm_le Y (qval f1 * (1 + mkQ 0 (-t) 0 0))
    linarith
  obtain ⟨n, hn⟩ : ∃ n, n = ‖mkQ 1 f 0 0‖ := ⟨_, rfl⟩
  have hn1 : 1 ≤ n := by
    rw [hn, norm_mkQ]
    refine Real.le_sqrt_of_sq_le ?_
    have := sq_nonneg f
    norm_num
    linarith
  have hn2 : n ≤ 4 / 3 := by
    rw [hn, norm_mkQ, Real.sqrt_le_left (by norm_num)]
    have : f ^ 2 ≤ (86 / 100) ^ 2 := by
      rw [← sq_abs]
      exact pow_le_pow_left₀ (abs_nonneg _) bf 2
    norm_num at this ⊢
    linarith
  rw [← hn] at a5
  rw [show n⁻¹ • mkQ 1 f 0 0 = mkQ n⁻¹ (n⁻¹ * f) 0 0 by rw [mkQ_smul]; simp] at a5
  obtain ⟨c0, c1, -, -⟩ := comp_le_norm (qval f1 - mkQ n⁻¹ (n⁻¹ * f) 0 0)
  have d0 : |(qval f1).re - n⁻¹| ≤ 43 / 10 ^ 6 := c0.trans a5
  have d1 : |(qval f1).imI - n⁻¹ * f| ≤ 43 / 10 ^ 6 := c1.trans a5
  have i1 : 3 / 4 ≤ n⁻¹ := by
    rw [show (3 / 4 : ℝ) = (4 / 3)⁻¹ by norm_num]
    exact inv_anti₀ (by linarith) hn2
  have m0 : |g * ((qval f1).re - n⁻¹)| ≤ 86 / 100 * (43 / 10 ^ 6) := by
    rw [abs_mul]
    exact mul_le_mul bg d0 (abs_nonneg _) (by norm_num)
  have m1 : 3 / 4 * t ^ 2 ≤ n⁻¹ * (f + g) := mul_le_mul i1 hfg (by positivity) (by linarith)
  have hYlow : 3 / 4 * t ^ 2 - 8 / 10 ^ 5 ≤ Y.imI := by
    have e : Y.imI = n⁻¹ * (f + g) + g * ((qval f1).re - n⁻¹) + ((qval f1).imI - n⁻¹ * f) := by rw [hYi]; ring
    have := (abs_le.mp m0).1
    have := (abs_le.mp d1).1
    norm_num at *
    linarith
  have hYpos : 0 < Y.imI := by norm_num at hYlow; linarith
  have hYn0 : 0 < ‖Y‖ := hYpos.trans_le ((le_abs_self _).trans (comp_le_norm Y).2.1)
  have hq : (3 / 4 * t ^ 2 - 8 / 10 ^ 5) / (187 / 100) ≤ ‖Y‖⁻¹ * Y.imI := by
    rw [inv_mul_eq_div]
    exact div_le_div₀ hYpos.le hYlow hYn0 hYn
  obtain ⟨-, z1, -, -⟩ := comp_le_norm (qval f2 - ‖Y‖⁻¹ • Y)
  have z2 : |(qval f2).imI - ‖Y‖⁻¹ * Y.imI| ≤ 43 / 10 ^ 6 := by
    refine le_trans (le_of_eq ?_) (z1.trans b5)
    simp
  have fin : t ^ 2 / 3 - 1 / 10 ^ 4 ≤ (qval f2).imI := by
    have := (abs_le.mp z2).1
    norm_num at *
    linarith
  refine ⟨s2, ?_, v2, f2, b1, b2, b3, b4, fin, ?_⟩
  · unfold feed
    rw [Op.bind_ok e1]
    unfold feed
    rw [Op.bind_ok e2]
    rfl
  · norm_num at fin
    linarith

/-- The hypotheses of `C137_drift` hold for the filter of order 3 with a step of a hundredth of a second and the samples
(8, 0, 0) and (-8, 0, 0). -/
example : ∃ s s', Started plainS s ∧ feed [(lit 8, lit 0, lit 0), (lit (-8), lit 0, lit 0)] s = (.ok (), s') ∧
    ShowsF s' fun f => NearUnit f ∧ 1 / 10 ^ 4 ≤ (qval f).imI := by
  obtain ⟨s, hs, hA⟩ := plainS_started
  have l0 : ⟪(lit 0 : F32)⟫ = 0 := by rw [val_lit (by decide +kernel)]; norm_num
  have l8 : ⟪(lit 8 : F32)⟫ = 8 := by rw [val_lit (by decide +kernel)]; norm_num
  have l8' : ⟪(lit (-8) : F32)⟫ = -8 := by rw [val_lit (by decide +kernel)]; norm_num
  obtain ⟨⟨g, hg⟩, -, -, -, hcg⟩ := hs.ready
  have r1 : Gyrometer.Reads plainS.config (lit 8) (lit 0) (lit 0) (lit 8) (lit 0) (lit 0) := by
    have e : Gyrometer.update (lit 8) (lit 0) (lit 0) s.gyr =
        (.ok (), (Gyrometer.update (lit 8) (lit 0) (lit 0) s.gyr).2) :=
      Prod.ext ((C43_gyr_iff hg.gyr hcg).mpr (by decide +kernel)) rfl
    obtain ⟨-, k1, k2, k3, -⟩ := C43_gyr_formula hg.gyr hcg e
    exact ⟨s.gyr, _, hg.gyr, hcg, e, k1.trans (by decide +kernel), k2.trans (by decide +kernel), k3.trans (by decide +kernel)⟩
  have r2 : Gyrometer.Reads plainS.config (lit (-8)) (lit 0) (lit 0) (lit (-8)) (lit 0) (lit 0) := by
    have e : Gyrometer.update (lit (-8)) (lit 0) (lit 0) s.gyr =
        (.ok (), (Gyrometer.update (lit (-8)) (lit 0) (lit 0) s.gyr).2) :=
      Prod.ext ((C43_gyr_iff hg.gyr hcg).mpr (by decide +kernel)) rfl
    obtain ⟨-, k1, k2, k3, -⟩ := C43_gyr_formula hg.gyr hcg e
    exact ⟨s.gyr, _, hg.gyr, hcg, e, k1.trans (by decide +kernel), k2.trans (by decide +kernel), k3.trans (by decide +kernel)⟩
  have hτ : ⟪plainS.ts⟫ = 10737418 / 1073741824 := by
    show F32.toReal (lit (1 / 100) : F32) = _
    rw [show (lit (1 / 100) : F32) = ⟨.fin (10737418 / 1073741824)⟩ by decide +kernel, F32.toReal_fin]
    norm_num
  obtain ⟨s', e, v, f, a1, a2, a3, a4, a5, -⟩ := C137_drift (x := (lit 8, lit 0, lit 0)) (y := (lit (-8), lit 0, lit 0)) hs rfl
    (by decide) plainE_ts.1 (by
      obtain ⟨v, f, a1, a2, a3, -, a5⟩ := hA
      exact ⟨v, f, a1, a2, a3, sub_eq_zero.mp (norm_le_zero_iff.mp a5)⟩) r1 r2 ⟨l8, l0, l0⟩ ⟨l8', l0, l0⟩
    (by norm_num) (by norm_num) (by rw [hτ]; norm_num [abs_of_pos]) rfl (by rw [hτ]; norm_num) (by rw [hτ]; norm_num)
  refine ⟨s, s', hs, e, v, f, a1, a2, a3, a4, le_trans ?_ a5⟩
  rw [hτ]
  norm_num

theorem shake_undone {F : Type} [Scalar F] [Rounded F] {c : GyrometerConfig F} {x y : F × F × F} (h : c.rateOf y = -c.rateOf x)
    (k : ℕ) : c.Undone (List.replicate k [x, y]).flatten := by
  induction k with
  | zero => exact .nil
  | succ k ih =>
    rw [List.replicate_succ, List.flatten_cons]
    exact .append (.wrap (l := []) h .nil) ih

/-- The hypotheses of `C137_closed` hold for the filter with the closed form and a hundred times the samples (1, 0, 0) and
(-1, 0, 0): the attitude is within four thousandths of the identity. -/
example : ∃ s s', Started plainT s ∧
    feed ((List.replicate 100 [((lit 1, lit 0, lit 0) : F32T × F32T × F32T), (lit (-1), lit 0, lit 0)]).flatten) s =
      (.ok (), s') ∧ ShowsF s' fun f => NearUnit f ∧ ‖qval f - 1‖ ≤ 4 / 1000 := by
  obtain ⟨s, hs, hA⟩ := plainT_started
  have v0 := Rounded.zero_val (F := F32T)
  have v1 := Rounded.one_val (F := F32T)
  have v2 : ⟪(lit (-1) : F32T)⟫ = -1 := (F32T.val_lit (by decide +kernel)).trans (by norm_num)
  have w0 := Rounded.zero_finite (F := F32T)
  have w1 := Rounded.one_finite (F := F32T)
  have w2 : Finite (lit (-1) : F32T) := show Finite (lit (-1) : F32) by decide +kernel
  obtain ⟨t1, t2⟩ := plainT_ts
  have hu := shake_undone (c := plainT.config) (x := (lit 1, lit 0, lit 0)) (y := (lit (-1), lit 0, lit 0)) (by
    simp only [GyrometerConfig.rateOf, GyrometerConfig.real, GyrometerConfig.rate, plainT, GyrometerConfig.default, v0, v1, v2]
    apply Quaternion.ext
    all_goals
      first | rw [Quaternion.re_neg] | rw [Quaternion.imI_neg] | rw [Quaternion.imJ_neg] | rw [Quaternion.imK_neg]
      simp [mkQ]) 100
  have hmem : ∀ x ∈ (List.replicate 100 [((lit 1, lit 0, lit 0) : F32T × F32T × F32T), (lit (-1), lit 0, lit 0)]).flatten,
      x = (lit 1, lit 0, lit 0) ∨ x = (lit (-1), lit 0, lit 0) := by
    intro x hx
    rw [List.mem_flatten] at hx
    obtain ⟨l, hl, hx⟩ := hx
    rw [(List.mem_replicate.mp hl).2] at hx
    simpa using hx
  have hlen : ((List.replicate 100 [((lit 1, lit 0, lit 0) : F32T × F32T × F32T), (lit (-1), lit 0, lit 0)]).flatten).length =
      200 := by
    rw [List.length_flatten, List.map_replicate, List.sum_replicate]
    rfl
  generalize (List.replicate 100 [((lit 1, lit 0, lit 0) : F32T × F32T × F32T), (lit (-1), lit 0, lit 0)]).flatten = l at *
  obtain ⟨s', k1, k2⟩ := C137_closed (B := 1) (C := 1) hs rfl t1 (by
      intro k hk
      have : k = lit 1 ∨ k = lit 0 := by
        simp [plainT, GyrometerConfig.default] at hk
        tauto
      rcases this with rfl | rfl
      · rw [v1]; norm_num
      · rw [v0]; norm_num)
    (by norm_num) (by norm_num) (by norm_num)
    (by
      show 1 * 1 * |⟪(lit (1 / 100) : F32T)⟫| ≤ 300
      linarith)
    (by
      show |⟪(lit (1 / 100) : F32T)⟫| ≤ 10 ^ 6
      refine t2.trans ?_
      norm_num)
    hA l (by
      intro x hx
      have b0 : ⟪plainT.config.xBias⟫ = 0 ∧ ⟪plainT.config.yBias⟫ = 0 ∧ ⟪plainT.config.zBias⟫ = 0 := ⟨v0, v0, v0⟩
      unfold GyrometerConfig.Within
      rw [b0.1, b0.2.1, b0.2.2]
      rcases hmem x hx with rfl | rfl
      · simp [v0, v1, w0, w1]
      · simp [v0, v2, w0, w2]) hu
  refine ⟨s, s', hs, k1, ?_⟩
  obtain ⟨v, f, a1, a2, a3, a4, a5⟩ := k2
  refine ⟨v, f, a1, a2, a3, a4, a5.trans ?_⟩
  rw [hlen, show plainT.ts = lit (1 / 100) from rfl]
  norm_num
  linarith

/-- A motion and the same motion backwards: samples about two axes, then the opposite ones in the reverse order. -/
def backAndForth : List (F32 × F32 × F32) :=
  [(lit 1, lit 0, lit 0), (lit 0, lit 1, lit 0), (lit 0, lit (-1), lit 0), (lit (-1), lit 0, lit 0)]

theorem backAndForth_undone : (GyrometerConfig.default : GyrometerConfig F32).Undone backAndForth ∧
    (∀ x ∈ backAndForth, (GyrometerConfig.default : GyrometerConfig F32).Within 1 x) ∧
    ∀ x ∈ backAndForth, ‖(GyrometerConfig.default : GyrometerConfig F32).rateOf x‖ ≤ 1 := by
  have v0 := Rounded.zero_val (F := F32)
  have v1 := Rounded.one_val (F := F32)
  have v2 : ⟪(lit (-1) : F32)⟫ = -1 := (val_lit (by decide +kernel)).trans (by norm_num)
  have w0 := Rounded.zero_finite (F := F32)
  have w1 := Rounded.one_finite (F := F32)
  have w2 : Finite (lit (-1) : F32) := by decide +kernel
  have hneg : ∀ x y z : ℝ, mkQ 0 (-x) (-y) (-z) = -mkQ 0 x y z := fun x y z => by
    apply Quaternion.ext
    all_goals
      first | rw [Quaternion.re_neg] | rw [Quaternion.imI_neg] | rw [Quaternion.imJ_neg] | rw [Quaternion.imK_neg]
      simp [mkQ]
  have hmem : ∀ x ∈ backAndForth, x = (lit 1, lit 0, lit 0) ∨ x = (lit 0, lit 1, lit 0) ∨ x = (lit 0, lit (-1), lit 0) ∨
      x = (lit (-1), lit 0, lit 0) := fun x hx => by simpa [backAndForth] using hx
  refine ⟨?_, fun x hx => ?_, fun x hx => ?_⟩
  · refine .wrap (x := (lit 1, lit 0, lit 0)) (l := [(lit 0, lit 1, lit 0), (lit 0, lit (-1), lit 0)]) ?_
      (.wrap (x := (lit 0, lit 1, lit 0)) (l := []) ?_ .nil)
    all_goals
      rw [GyrometerConfig.rateOf, GyrometerConfig.rateOf]
      simp only [GyrometerConfig.real, GyrometerConfig.rate, GyrometerConfig.default, v0, v1, v2]
      rw [← hneg]
      norm_num
  · have b0 : ⟪(GyrometerConfig.default : GyrometerConfig F32).xBias⟫ = 0 ∧ ⟪(GyrometerConfig.default : GyrometerConfig F32).yBias⟫ = 0 ∧
        ⟪(GyrometerConfig.default : GyrometerConfig F32).zBias⟫ = 0 := ⟨v0, v0, v0⟩
    unfold GyrometerConfig.Within
    rw [b0.1, b0.2.1, b0.2.2]
    rcases hmem x hx with rfl | rfl | rfl | rfl <;> simp [v0, v1, v2, w0, w1, w2]
  · rcases hmem x hx with rfl | rfl | rfl | rfl <;>
    · simp only [GyrometerConfig.rateOf, GyrometerConfig.real, GyrometerConfig.rate, GyrometerConfig.default, v0, v1, v2]
      rw [norm_mkQ, Real.sqrt_le_left (by norm_num)]
      norm_num

theorem default_upTo : (GyrometerConfig.default : GyrometerConfig F32).UpTo 1 := by
  intro k hk
  have : k = lit 1 ∨ k = lit 0 := by
    simp [GyrometerConfig.default] at hk
    tauto
  rcases this with rfl | rfl
  · rw [Rounded.one_val]; norm_num
  · rw [Rounded.zero_val]; norm_num

/-- The hypotheses of `C137_euler` hold for it. -/
example : ∃ s s', Started plainE s ∧ feed backAndForth s = (.ok (), s') ∧
    ShowsF s' fun f => NearUnit f ∧ ‖qval f - 1‖ ≤ 4 / 10 ^ 5 := by
  obtain ⟨s, hs, hA⟩ := plainE_started
  obtain ⟨t1, t2⟩ := plainE_ts
  have t3 : |⟪plainE.ts⟫| ≤ 11 / 1000 := t2
  obtain ⟨h1, h2, -⟩ := backAndForth_undone
  obtain ⟨s', k1, v, f, a1, a2, a3, a4, a5⟩ := C137_euler (B := 1) (C := 1) hs rfl t1 default_upTo (by norm_num) (by norm_num)
    (by norm_num) (by norm_num at t3 ⊢; linarith) (by norm_num at t3 ⊢; linarith) hA backAndForth h2 h1
  refine ⟨s, s', hs, k1, v, f, a1, a2, a3, a4, a5.trans ?_⟩
  rw [show backAndForth.length = 4 from rfl]
  norm_num at t3 ⊢
  linarith

/-- A filter with the series of order 1. -/
def plainS1 : ARInit F32 := { plainE with method := .TaylorSeries, order := 1 }

theorem plainS1_started : ∃ s, Started plainS1 s ∧ ShowsF s fun f => NearUnit f ∧ ‖qval f - 1‖ ≤ 0 := by
  obtain ⟨s0, e0, -⟩ := AR.new_fresh (F := F32)
  have h := (C46_iff (a := plainS1) e0).mpr (by
    show _ ∧ Finite (lit 1 : F32) ∧ Finite (lit 0 : F32) ∧ Finite (lit 0 : F32) ∧ Finite (lit 0 : F32)
    refine ⟨?_, by decide +kernel⟩
    show ∀ x ∈ (GyrometerConfig.default : GyrometerConfig F32).params, Finite x
    decide +kernel)
  refine ⟨_, ⟨s0, _, ⟨s0, e0, .refl _⟩, Prod.ext h rfl, .refl _⟩, ?_⟩
  obtain ⟨v, e1, hv⟩ := C46_attitude ⟨s0, e0, .refl _⟩ (Prod.ext h rfl : AR.initWith plainS1 s0 = (.ok (), _))
  have hq : qval (seq4 plainS1.qw plainS1.qx plainS1.qy plainS1.qz) = 1 := by
    show mkQ ⟪(lit 1 : F32)⟫ ⟪(lit 0 : F32)⟫ ⟪(lit 0 : F32)⟫ ⟪(lit 0 : F32)⟫ = 1
    rw [Rounded.one_val, Rounded.zero_val]
    rfl
  refine ⟨v, _, e1, hv, ?_, ?_, ?_⟩
  · exact forall_lt_four.mpr ⟨Rounded.one_finite, Rounded.zero_finite, Rounded.zero_finite, Rounded.zero_finite⟩
  · unfold NearUnit
    rw [hq]
    simp
  · rw [hq]
    simp

/-- The hypotheses of `C137_first` hold for it. -/
example : ∃ s s', Started plainS1 s ∧ feed backAndForth s = (.ok (), s') ∧
    ShowsF s' fun f => NearUnit f ∧ ‖qval f - 1‖ ≤ 5 / 10 ^ 5 := by
  obtain ⟨s, hs, hA⟩ := plainS1_started
  obtain ⟨t1, t2⟩ := plainE_ts
  have t3 : |⟪plainS1.ts⟫| ≤ 11 / 1000 := t2
  obtain ⟨h1, h2, h3⟩ := backAndForth_undone
  obtain ⟨s', k1, v, f, a1, a2, a3, a4, a5⟩ := C137_first (B := 1) (C := 1) (h := 55 / 10000) hs rfl rfl t1 default_upTo
    (by norm_num) (by norm_num) (by norm_num) (by norm_num at t3 ⊢; linarith) (by norm_num at t3 ⊢; linarith) (by norm_num) hA
    backAndForth (fun x hx => ⟨h2 x hx, by
      rw [norm_smul, Real.norm_eq_abs, abs_div, abs_two]
      have : |⟪plainS1.ts⟫| / 2 * ‖plainS1.config.rateOf x‖ ≤ 11 / 1000 / 2 * 1 :=
        mul_le_mul (by linarith) (h3 x hx) (norm_nonneg _) (by norm_num)
      linarith⟩) h1
  refine ⟨s, s', hs, k1, v, f, a1, a2, a3, a4, a5.trans ?_⟩
  rw [show backAndForth.length = 4 from rfl]
  norm_num at t3 ⊢
  linarith

end AR
end Verif
