import Verif.Props.AquaTurn

/-
The tilt of the AQUA filter in the MARG mode under noise and motion (C119).

The accelerometer reads gravity plus an error, gravity moves in the frame of the sensor, and the gyrometer reads any rates.
-/

set_option linter.unusedSectionVars false
set_option linter.unusedSimpArgs false

namespace Verif
open Scalar
namespace Aqua

/-- How far the attitude `Q` is from seeing the vector `a` straight along the negative third axis: zero if it does,
`norm3 a` if it sees it horizontal. -/
noncomputable def tilt (Q : Quaternion ℝ) (a : Fin 3 → ℝ) : ℝ := norm3 a + (star Q * pureQ a * Q).imK

section
variable {A P Q ω : Quaternion ℝ} {a b : Fin 3 → ℝ} {τ : ℝ}

theorem norm3_pureQ (a : Fin 3 → ℝ) : ‖pureQ a‖ = norm3 a := by
  rw [pureQ, norm_mkQ]
  unfold norm3
  congr 1
  ring

theorem pureQ_diff (a b : Fin 3 → ℝ) : pureQ a - pureQ b = pureQ (a - b) := by
  apply Quaternion.ext <;> simp [pureQ]

theorem imK_le_norm (q : Quaternion ℝ) : |q.imK| ≤ ‖q‖ := by
  rw [quat_norm]
  refine Real.abs_le_sqrt ?_
  rw [Quaternion.normSq_def']
  nlinarith [sq_nonneg q.re, sq_nonneg q.imI, sq_nonneg q.imJ]

theorem norm3_sub (a b : Fin 3 → ℝ) : |norm3 a - norm3 b| ≤ norm3 (a - b) := by
  rw [← norm3_pureQ, ← norm3_pureQ, ← norm3_pureQ, ← pureQ_diff]
  exact abs_norm_sub_norm_le _ _

/-- The tilt depends continuously on the vector. -/
theorem tilt_vec (hQ : ‖Q‖ = 1) (a b : Fin 3 → ℝ) : tilt Q a ≤ tilt Q b + 2 * norm3 (a - b) := by
  have h1 := (abs_le.mp (norm3_sub a b)).2
  have h2 : (star Q * pureQ a * Q).imK - (star Q * pureQ b * Q).imK ≤ norm3 (a - b) := by
    have : (star Q * pureQ a * Q).imK - (star Q * pureQ b * Q).imK = (star Q * pureQ (a - b) * Q).imK := by
      rw [← pureQ_diff, ← Quaternion.imK_sub]
      congr 1
      noncomm_ring
    rw [this]
    refine (le_abs_self _).trans ((imK_le_norm _).trans ?_)
    rw [norm_mul, norm_mul, norm_star, hQ, norm3_pureQ]
    linarith
  unfold tilt
  linarith

/-- And on the attitude. -/
theorem tilt_att (hP : ‖P‖ = 1) (hQ : ‖Q‖ = 1) (a : Fin 3 → ℝ) : tilt P a ≤ tilt Q a + 2 * ‖P - Q‖ * norm3 a := by
  have h2 : (star P * pureQ a * P).imK - (star Q * pureQ a * Q).imK ≤ 2 * ‖P - Q‖ * norm3 a := by
    have e : star P * pureQ a * P - star Q * pureQ a * Q = star (P - Q) * pureQ a * P + star Q * pureQ a * (P - Q) := by
      rw [star_sub]
      noncomm_ring
    rw [← Quaternion.imK_sub, e]
    refine (le_abs_self _).trans ((imK_le_norm _).trans ((norm_add_le _ _).trans ?_))
    rw [norm_mul, norm_mul, norm_mul, norm_mul, norm_star, norm_star, hP, hQ, norm3_pureQ]
    linarith
  unfold tilt
  linarith

theorem tilt_nonneg (hQ : ‖Q‖ = 1) (a : Fin 3 → ℝ) : 0 ≤ tilt Q a := by
  have h := (abs_le.mp (imK_le_norm (star Q * pureQ a * Q))).1
  rw [norm_mul, norm_mul, norm_star, hQ, norm3_pureQ] at h
  unfold tilt
  linarith

/-- The prediction moves the attitude by at most half the angle turned. -/
theorem predQ_dist (hA : ‖A‖ = 1) (hω : ω.re = 0) (τ : ℝ) : ‖predQ A ω τ - A‖ ≤ |τ| * ‖ω‖ / 2 := by
  obtain ⟨B, hB⟩ : ∃ B, B = A + (τ / 2) • (A * ω) := ⟨_, rfl⟩
  have hd : ‖B - A‖ = |τ| * ‖ω‖ / 2 := by
    rw [hB, add_sub_cancel_left, norm_smul, norm_mul, hA, Real.norm_eq_abs, abs_div, abs_two]
    ring
  have h1 : 1 ≤ ‖B‖ := by
    have : B = A * (1 + (τ / 2) • ω) := by rw [hB, mul_add, mul_one, mul_smul_comm]
    rw [this, norm_mul, hA, one_mul]
    exact AR.one_le_norm_step hω (τ / 2)
  have hP1 := predQ_unit (τ := τ) (eps_lt_norm hA) hω
  have hP : B = ‖B‖ • predQ A ω τ := by
    unfold predQ unitOf
    rw [← hB, if_pos (lt_of_lt_of_le AR.eps_lt_one h1), smul_smul, mul_inv_cancel₀ (by linarith), one_smul]
  rw [← hd]
  refine abs_le_of_sq_le_sq' ?_ (norm_nonneg _) |>.2
  obtain ⟨m, hm⟩ : ∃ m, m = ‖B‖ := ⟨_, rfl⟩
  rw [← hm] at h1 hP
  have e1 := norm_sub_sq_real (predQ A ω τ) A
  have e2 := norm_sub_sq_real B A
  have e3 : inner ℝ B A = m * inner ℝ (predQ A ω τ) A := by
    rw [hP, real_inner_smul_left]
  have e4 : inner ℝ (predQ A ω τ) A ≤ 1 := by
    have := real_inner_le_norm (predQ A ω τ) A
    rwa [hP1, hA, one_mul] at this
  rw [e1, e2, e3, hP1, hA, ← hm]
  nlinarith [mul_nonneg (sub_nonneg.mpr h1) (sub_nonneg.mpr e4)]

end
end Aqua
open Aqua
section
variable {s s' : Aqua XR} {i : AquaInit XR} {A : Quaternion ℝ} {τ α β t u : ℝ}
  {dg : GyrometerConfig ℝ} {da : AccelerometerConfig ℝ} {dm : MagnetometerConfig ℝ} {y : Sample}

/-- C119: one successful MARG update without adaptive gain, whatever the rates, the field and its gain.  The rates can
add at most `n |τ| ‖ω‖` to the tilt seen in the acceleration, of norm `n`; the correction then multiplies it by a
factor below 1. -/
theorem C119_step (hs : Aqua.Set i dg da dm s) (hi : AquaInit.Fixed i τ α β t u) (hα : 0 < α) (hA : Shows s A) (hn : ‖A‖ = 1)
    {n T : ℝ} (hna : norm3 (y.acc da) = n) (hT : T = tilt A (y.acc da) + n * (|τ| * ‖y.rate dg‖)) (hT1 : T < n)
    (ht : t < √((1 + n - T) / 2)) (h : feed y s = (.ok (), s')) :
    ∃ Q, Shows s' Q ∧ ‖Q‖ = 1 ∧ 0 ≤ tilt Q (y.acc da) ∧
      tilt Q (y.acc da) ≤ (1 - 2 * α * n / ((1 + max 1 n) ^ 2 * (1 + α ^ 2 * n ^ 2))) * T := by
  obtain ⟨I, J, k, hs'⟩ := fixed_inv hs.started hi hA hs.gyr hs.acc hs.mag h
  have hω : (y.rate dg).re = 0 := AR.rate_re _ _ _
  obtain ⟨P, hP⟩ : ∃ P, P = predQ A (y.rate dg) τ := ⟨_, rfl⟩
  have hPn : ‖P‖ = 1 := hP ▸ predQ_unit (eps_lt_norm hn) hω
  have hP1 := normSq_of_norm hPn
  have hPA : ‖P - A‖ ≤ |τ| * ‖y.rate dg‖ / 2 := hP ▸ predQ_dist hn hω τ
  have hn0 : 0 ≤ n := hna ▸ norm3_nonneg _
  have hTP : tilt P (y.acc da) ≤ T := by
    refine (tilt_att hPn hn _).trans ?_
    rw [hT, hna]
    have := mul_le_mul_of_nonneg_right hPA hn0
    linarith
  obtain ⟨g, hg⟩ : ∃ g, g = unrot P (y.acc da) := ⟨_, rfl⟩
  obtain ⟨p, hp⟩ : ∃ p, p = g 0 := ⟨_, rfl⟩
  obtain ⟨q, hq⟩ : ∃ q, q = g 1 := ⟨_, rfl⟩
  obtain ⟨r, hr⟩ : ∃ r, r = g 2 := ⟨_, rfl⟩
  have hg1 : unrot P (y.acc da) = ![p, q, r] := by
    rw [← hg, hp, hq, hr]
    funext j
    fin_cases j <;> rfl
  have h1 : star P * pureQ (y.acc da) * P = mkQ 0 p q r := by rw [← unrot_unit hP1, hg1]; rfl
  have htr : tilt P (y.acc da) = n + r := by rw [tilt, h1, hna]; rfl
  rw [htr] at hTP
  have hz : r < 0 := by linarith
  have hng : norm3 ![p, q, r] = n := by rw [← hg1, unrot_norm hP1, hna]
  have hpq : p ^ 2 + q ^ 2 + r ^ 2 = n ^ 2 := by rw [← hng, norm3_sq]; rfl
  have hrn := (abs_le_of_sq_le_sq' (show r ^ 2 ≤ n ^ 2 by linarith [sq_nonneg p, sq_nonneg q]) hn0).1
  have hkacc := k.acc
  have hkmag := k.mag
  have hkahead := k.ahead
  rw [← hP] at hkacc hkmag hkahead hs'
  rw [hg1] at hkacc
  obtain ⟨hI, ⟨p', q', r', e1, e2⟩, -⟩ := acc_turn hi.alpha_range hz hpq rfl rfl rfl
    (lt_of_lt_of_le ht (Real.sqrt_le_sqrt (by linarith))) hkacc
  have hJ := unit_of_inter hi.beta_range hi.tMag_range.1 (magPos_spec hkahead (z := 0)).1 hkmag
  obtain ⟨j1, j2⟩ := inter_axis hkmag
  have hQ : ‖P * I * J‖ = 1 := by rw [norm_mul, norm_mul, hPn, hI, hJ]; norm_num
  rw [unitOf_unit hQ] at hs'
  obtain ⟨p'', q'', e3⟩ := axis_keeps j1 j2 hJ p' q' r'
  have e4 : tilt (P * I * J) (y.acc da) = n + r' := by rw [tilt, back_mul, back_mul, h1, e1, e3, hna]; rfl
  refine ⟨P * I * J, hs', hQ, tilt_nonneg hQ _, ?_⟩
  rw [e4, e2, mul_div_assoc]
  have hf := tilt_factor ⟨hα, hi.alpha_range.2⟩ hz (n := n) (by linarith) rfl rfl rfl (le_max_left 1 n) (le_max_right 1 n)
  have hf0 : 0 ≤ 1 - 2 * α * n / ((1 + max 1 n) ^ 2 * (1 + α ^ 2 * n ^ 2)) := by
    refine le_trans ?_ hf
    have : 0 ≤ n ^ 2 - r ^ 2 := by linarith [sq_nonneg p, sq_nonneg q]
    positivity
  calc _ ≤ (n + r) * (1 - 2 * α * n / ((1 + max 1 n) ^ 2 * (1 + α ^ 2 * n ^ 2))) :=
        mul_le_mul_of_nonneg_left hf (by linarith)
    _ ≤ T * (1 - 2 * α * n / ((1 + max 1 n) ^ 2 * (1 + α ^ 2 * n ^ 2))) := mul_le_mul_of_nonneg_right hTP hf0
    _ = _ := mul_comm _ _

/-- The readings of a sensor: update `k` reads the gravity `b k` up to `ε`, with a norm from `n₁` to `n₂`, and rates of
norm at most `g`; from one update to the next gravity moves by at most `δ`. -/
structure Aqua.Shaken (dg : GyrometerConfig ℝ) (da : AccelerometerConfig ℝ) (ε δ n₁ n₂ g : ℝ) (b : ℕ → Fin 3 → ℝ)
    (y : ℕ → Sample) : Prop where
  acc : ∀ k, norm3 ((y k).acc da - b k) ≤ ε
  low : ∀ k, n₁ ≤ norm3 ((y k).acc da)
  high : ∀ k, norm3 ((y k).acc da) ≤ n₂
  rate : ∀ k, ‖(y k).rate dg‖ ≤ g
  moves : ∀ k, norm3 (b (k + 1) - b k) ≤ δ

/-- The factor of the correction for all norms from `n₁` to `n₂`. -/
theorem Aqua.factor_le {n n₁ n₂ : ℝ} (hα : 0 < α) (h0 : 0 < n₁) (h1 : n₁ ≤ n) (h2 : n ≤ n₂) :
    1 - 2 * α * n / ((1 + max 1 n) ^ 2 * (1 + α ^ 2 * n ^ 2)) ≤ 1 - 2 * α * n₁ / ((1 + max 1 n₂) ^ 2 * (1 + α ^ 2 * n₂ ^ 2)) := by
  have hm : max 1 n ≤ max 1 n₂ := max_le_max_left 1 h2
  have hm0 := le_max_left 1 n
  have hn : 0 < n := by linarith
  refine sub_le_sub_left (div_le_div₀ (by positivity) (by nlinarith) (by positivity) ?_) 1
  refine mul_le_mul ?_ ?_ (by positivity) (by positivity)
  · exact pow_le_pow_left₀ (by linarith) (by linarith) 2
  · have := mul_le_mul_of_nonneg_left (pow_le_pow_left₀ hn.le h2 2) (sq_nonneg α)
    linarith

/-- C119: any number of successful updates during a motion.  If the tilt starts below a bound `M` that the filter
can hold, it stays below, and it decays to a level set by the errors: after `N` updates the tilt seen in gravity is at
most `ρᴺ` times the first one plus `(ρ (2 ε + n₂ |τ| g) + 2 ε + 2 δ) / (1 - ρ)`. -/
theorem C119_track (hs : Aqua.Set i dg da dm s) (hi : AquaInit.Fixed i τ α β t u) (hα : 0 < α) (hA : Shows s A) (hn : ‖A‖ = 1)
    {ε δ n₁ n₂ g c ρ M : ℝ} {b : ℕ → Fin 3 → ℝ} {y : ℕ → Sample} (hy : Shaken dg da ε δ n₁ n₂ g b y) (h1 : 0 < n₁)
    (hρ : ρ = 1 - 2 * α * n₁ / ((1 + max 1 n₂) ^ 2 * (1 + α ^ 2 * n₂ ^ 2))) (hc : c = 2 * ε + n₂ * (|τ| * g))
    (hM0 : tilt A (b 0) ≤ M) (hM : ρ * (M + c) + 2 * ε + 2 * δ ≤ M) (hM1 : M + c < n₁) (ht : t < √((1 + n₁ - (M + c)) / 2))
    (N : ℕ) (hok : ∀ k < N, (feed (y k) (feeds s ((List.range k).map y))).1 = .ok ()) :
    ∃ Q, Shows (feeds s ((List.range N).map y)) Q ∧ ‖Q‖ = 1 ∧ 0 ≤ tilt Q (b N) ∧ tilt Q (b N) ≤ M ∧
      tilt Q (b N) ≤ ρ ^ N * tilt A (b 0) + (ρ * c + 2 * ε + 2 * δ) / (1 - ρ) := by
  have h12 : n₁ ≤ n₂ := (hy.low 0).trans (hy.high 0)
  have hε : 0 ≤ ε := (norm3_nonneg _).trans (hy.acc 0)
  have hδ : 0 ≤ δ := (norm3_nonneg _).trans (hy.moves 0)
  have hg : 0 ≤ g := (norm_nonneg _).trans (hy.rate 0)
  have hc0 : 0 ≤ c := by
    rw [hc]
    have : 0 ≤ n₂ * (|τ| * g) := mul_nonneg (by linarith) (mul_nonneg (abs_nonneg _) hg)
    linarith
  have hρ1 : ρ < 1 := by
    rw [hρ]
    have : 0 < 2 * α * n₁ / ((1 + max 1 n₂) ^ 2 * (1 + α ^ 2 * n₂ ^ 2)) := by
      have := le_max_left 1 n₂
      positivity
    linarith
  have hρ0 : 0 ≤ ρ := by
    rw [hρ, sub_nonneg, div_le_one (by have := le_max_left 1 n₂; positivity)]
    have h3 := le_max_left 1 n₂
    have h4 : 4 ≤ (1 + max 1 n₂) ^ 2 := by nlinarith
    have h5 : 2 * α * n₁ ≤ 1 + α ^ 2 * n₂ ^ 2 := by nlinarith [sq_nonneg (1 - α * n₂), mul_le_mul_of_nonneg_left h12 hα.le]
    have h6 : 0 ≤ α ^ 2 * n₂ ^ 2 := by positivity
    nlinarith
  have main : Aqua.Set i dg da dm (feeds s ((List.range N).map y)) ∧
      ∃ Q, Shows (feeds s ((List.range N).map y)) Q ∧ ‖Q‖ = 1 ∧ tilt Q (b N) ≤ M ∧
        tilt Q (b N) ≤ ρ ^ N * tilt A (b 0) + (ρ * c + 2 * ε + 2 * δ) * ((1 - ρ ^ N) / (1 - ρ)) := by
    induction N with
    | zero => exact ⟨hs, A, hA, hn, hM0, by simp⟩
    | succ N ih =>
      obtain ⟨i1, Q, i2, i3, i4, i5⟩ := ih (fun k hk => hok k (by omega))
      obtain ⟨s'', e⟩ : ∃ s'', feed (y N) (feeds s ((List.range N).map y)) = (.ok (), s'') :=
        ⟨_, Prod.ext (hok N (by omega)) rfl⟩
      have hrec : tilt Q ((y N).acc da) + norm3 ((y N).acc da) * (|τ| * ‖(y N).rate dg‖) ≤ tilt Q (b N) + c := by
        have k1 := tilt_vec i3 ((y N).acc da) (b N)
        have k2 := hy.acc N
        have k3 : norm3 ((y N).acc da) * (|τ| * ‖(y N).rate dg‖) ≤ n₂ * (|τ| * g) :=
          mul_le_mul (hy.high N) (mul_le_mul_of_nonneg_left (hy.rate N) (abs_nonneg _))
            (mul_nonneg (abs_nonneg _) (norm_nonneg _)) (by linarith)
        rw [hc]
        linarith
      have hlow := hy.low N
      obtain ⟨Q', j1, j2, j3, j4⟩ := C119_step i1 hi hα i2 i3 rfl rfl (by linarith)
        (lt_of_lt_of_le ht (Real.sqrt_le_sqrt (by linarith))) e
      have j5 : tilt Q' ((y N).acc da) ≤ ρ * (tilt Q (b N) + c) := by
        refine j4.trans (mul_le_mul (hρ ▸ factor_le hα h1 hlow (hy.high N)) hrec ?_ hρ0)
        have := tilt_nonneg i3 ((y N).acc da)
        have : 0 ≤ norm3 ((y N).acc da) * (|τ| * ‖(y N).rate dg‖) := by
          have := norm3_nonneg ((y N).acc da)
          positivity
        linarith
      have j6 : tilt Q' (b (N + 1)) ≤ ρ * (tilt Q (b N) + c) + 2 * ε + 2 * δ := by
        have k1 := tilt_vec j2 (b (N + 1)) (b N)
        have k2 := tilt_vec j2 (b N) ((y N).acc da)
        have k3 : norm3 (b N - (y N).acc da) ≤ ε := by
          have := hy.acc N
          rwa [← norm3_pureQ, ← pureQ_diff, norm_sub_rev, pureQ_diff, norm3_pureQ] at this
        have k4 := hy.moves N
        linarith
      rw [List.range_succ, List.map_append, feeds_append]
      have e2 : feeds (feeds s ((List.range N).map y)) ([N].map y) = s'' := by
        show (feed (y N) _).2 = s''
        rw [e]
      rw [e2]
      refine ⟨?_, Q', j1, j2, ?_, ?_⟩
      · have := i1.feed (y N)
        rwa [e] at this
      · have := mul_le_mul_of_nonneg_left (add_le_add_left i4 c) hρ0
        linarith
      · have := mul_le_mul_of_nonneg_left i5 hρ0
        have h0 : 1 - ρ ≠ 0 := by linarith
        have e3 : (ρ * c + 2 * ε + 2 * δ) * ((1 - ρ ^ (N + 1)) / (1 - ρ)) = ρ * ((ρ * c + 2 * ε + 2 * δ) * ((1 - ρ ^ N) / (1 - ρ))) +
            (ρ * c + 2 * ε + 2 * δ) := by
          field_simp
          ring
        rw [e3, pow_succ]
        linarith
  obtain ⟨-, Q, k1, k2, k3, k4⟩ := main
  refine ⟨Q, k1, k2, tilt_nonneg k2 _, k3, k4.trans ?_⟩
  have hk : (1 - ρ ^ N) / (1 - ρ) ≤ 1 / (1 - ρ) := div_le_div_of_nonneg_right (by linarith [pow_nonneg hρ0 N]) (by linarith)
  have hnn : 0 ≤ ρ * c + 2 * ε + 2 * δ := by have := mul_nonneg hρ0 hc0; linarith
  have := mul_le_mul_of_nonneg_left hk hnn
  rw [← div_eq_mul_one_div] at this
  linarith

/-- C119: such an update succeeds exactly when the field is not seen, after the prediction and the correction of the
tilt, straight backwards or straight up or down. -/
theorem C119_succeeds (hs : Aqua.Set i dg da dm s) (hi : AquaInit.Fixed i τ α β t u) (hA : Shows s A) (hn : ‖A‖ = 1) (hu : u < 1)
    {n T x v z : ℝ} {P I : Quaternion ℝ} (hna : norm3 (y.acc da) = n)
    (hT : T = tilt A (y.acc da) + n * (|τ| * ‖y.rate dg‖)) (hT1 : T < n) (ht : t < √((1 + n - T) / 2))
    (hP : P = predQ A (y.rate dg) τ) (hI : I = lerpQ α (accQ (unrot P (y.acc da))))
    (hm : epsilon ℝ < norm3 (y.field dm)) (h2 : star (P * I) * pureQ (y.field dm) * (P * I) = mkQ 0 x v z) :
    (feed y s).1 = .ok () ↔ ¬ (v = 0 ∧ x ≤ 0) := by
  have hω : (y.rate dg).re = 0 := AR.rate_re _ _ _
  have hPn : ‖P‖ = 1 := hP ▸ predQ_unit (eps_lt_norm hn) hω
  have hP1 := normSq_of_norm hPn
  have hPA : ‖P - A‖ ≤ |τ| * ‖y.rate dg‖ / 2 := hP ▸ predQ_dist hn hω τ
  have hn0 : 0 ≤ n := hna ▸ norm3_nonneg _
  have hTP : tilt P (y.acc da) ≤ T := by
    refine (tilt_att hPn hn _).trans ?_
    rw [hT, hna]
    have := mul_le_mul_of_nonneg_right hPA hn0
    linarith
  obtain ⟨g, hg⟩ : ∃ g, g = unrot P (y.acc da) := ⟨_, rfl⟩
  have h1 : star P * pureQ (y.acc da) * P = pureQ g := by rw [← unrot_unit hP1, hg]
  have htr : tilt P (y.acc da) = n + g 2 := by rw [tilt, h1, hna]; rfl
  rw [htr] at hTP
  have hz : g 2 < 0 := by linarith
  have hre : (accQ g).re = √((1 - g 2) / 2) := by
    unfold accQ
    rw [if_pos hz]
    rfl
  have hl : t < (accQ g).re := by
    rw [hre]
    exact lt_of_lt_of_le ht (Real.sqrt_le_sqrt (by linarith))
  have hInter : Inter α t (accQ (unrot P (y.acc da))) I := by
    rw [hI, ← hg]
    exact Or.inl ⟨hl, rfl⟩
  have hI1 : ‖I‖ = 1 := by
    have hng : norm3 g = n := by rw [hg, unrot_norm hP1, hna]
    have hpq : g 0 ^ 2 + g 1 ^ 2 + g 2 ^ 2 = n ^ 2 := by rw [← hng, norm3_sq]
    have e : g = ![g 0, g 1, g 2] := by
      funext j
      fin_cases j <;> rfl
    rw [← hg, e] at hInter
    exact (acc_turn hi.alpha_range hz hpq rfl rfl rfl (by rw [← hre]; exact hl) hInter).1
  have hB : ‖P * I‖ = 1 := by rw [norm_mul, hPn, hI1, one_mul]
  have hB1 := normSq_of_norm hB
  obtain ⟨m, hmm⟩ : ∃ m, m = norm3 (y.field dm) := ⟨_, rfl⟩
  have hm0 : 0 < m := hmm ▸ Linalg.eps_pos.trans hm
  have hdir : star (P * I) * pureQ (dir (y.field dm)) * (P * I) = mkQ 0 (x / m) (v / m) (z / m) := by
    have : pureQ (dir (y.field dm)) = m⁻¹ • pureQ (y.field dm) := by
      unfold dir
      simp only [if_pos hm]
      rw [← hmm]
      apply Quaternion.ext <;> simp [pureQ, div_eq_inv_mul]
    rw [this, mul_smul_comm, smul_mul_assoc, h2, mkQ_smul]
    simp [div_eq_inv_mul]
  rw [← unrot_unit hB1] at hdir
  have c0 : unrot (P * I) (dir (y.field dm)) 0 = x / m := congrArg (fun q => q.imI) hdir
  have c1 : unrot (P * I) (dir (y.field dm)) 1 = v / m := congrArg (fun q => q.imJ) hdir
  have hahead : 0 < √(x / m * (x / m) + v / m * (v / m)) + x / m ↔ ¬ (v = 0 ∧ x ≤ 0) := by
    constructor
    · rintro h ⟨rfl, hx⟩
      rw [zero_div, mul_zero, add_zero, Real.sqrt_mul_self_eq_abs, abs_of_nonpos (div_nonpos_of_nonpos_of_nonneg hx hm0.le)] at h
      linarith
    · intro h
      by_cases hx : x ≤ 0
      · have hv : v ≠ 0 := fun hv => h ⟨hv, hx⟩
        have : |x / m| < √(x / m * (x / m) + v / m * (v / m)) := by
          refine Real.lt_sqrt_of_sq_lt ?_
          rw [sq_abs]
          have : 0 < v / m * (v / m) := mul_self_pos.mpr (div_ne_zero hv hm0.ne')
          linarith [sq (x / m)]
        linarith [neg_abs_le (x / m)]
      · have : 0 < x / m := div_pos (by linarith) hm0
        have := Real.sqrt_nonneg (x / m * (x / m) + v / m * (v / m))
        linarith
  rw [← hahead]
  constructor
  · intro h
    obtain ⟨I', J, k, -⟩ := fixed_inv hs.started hi hA hs.gyr hs.acc hs.mag (s' := (feed y s).2) (Prod.ext h rfl)
    have hk := k.acc
    rw [← hP] at hk
    obtain rfl := inter_unique hInter hk
    have ha := k.ahead
    rwa [← hP, c0, c1] at ha
  · intro h
    obtain ⟨J, hJ⟩ : ∃ J, Inter β u (magPos (x / m) (v / m)) J := by
      have hpos := (magPos_spec (z := 0) h).1
      by_cases hc : u < (magPos (x / m) (v / m)).re
      · exact ⟨_, Or.inl ⟨hc, rfl⟩⟩
      · refine ⟨_, Or.inr ⟨not_lt.mp hc, ?_, by linarith, rfl⟩⟩
        have : 0 ≤ (magPos (x / m) (v / m)).re := div_nonneg (Real.sqrt_nonneg _) (Real.sqrt_nonneg _)
        linarith
    obtain ⟨s', e, -⟩ := fixed_ok (I := I) (J := J) hs.started hi hA hs.gyr hs.acc hs.mag
      ⟨by rw [← hP]; exact hInter, by rw [← hP, c0, c1]; exact h, by rw [← hP, c0, c1]; exact hJ⟩
    rw [e]

/-! ### A concrete case -/

attribute [local simp] at_two

namespace Aqua

/-- A turn about the second axis. -/
def Planar (q : Quaternion ℝ) : Prop := q.imI = 0 ∧ q.imK = 0

theorem Planar.mul {p q : Quaternion ℝ} (hp : Planar p) (hq : Planar q) : Planar (p * q) := by
  constructor <;> simp [Quaternion.imI_mul, Quaternion.imK_mul, hp.1, hp.2, hq.1, hq.2]

theorem Planar.add {p q : Quaternion ℝ} (hp : Planar p) (hq : Planar q) : Planar (p + q) := by
  constructor <;> simp [hp.1, hp.2, hq.1, hq.2]

theorem Planar.smul {q : Quaternion ℝ} (hq : Planar q) (c : ℝ) : Planar (c • q) := by
  constructor <;> simp [hq.1, hq.2]

theorem planar_one : Planar 1 := ⟨rfl, rfl⟩

theorem Planar.unitOf {q : Quaternion ℝ} (hq : Planar q) : Planar (unitOf q) := by
  unfold Aqua.unitOf
  split
  · exact hq.smul _
  · exact ⟨rfl, rfl⟩

theorem Planar.keeps {q : Quaternion ℝ} (hq : Planar q) (hn : ‖q‖ = 1) : star q * pureQ ![0, 1, 0] * q = mkQ 0 0 1 0 := by
  have hs := normSq_of_norm hn
  rw [Quaternion.normSq_def', hq.1, hq.2] at hs
  apply Quaternion.ext <;> simp [pureQ, Quaternion.re_mul, Quaternion.imI_mul, Quaternion.imJ_mul, Quaternion.imK_mul, hq.1, hq.2]
  · ring
  · linarith

theorem Planar.turns {q : Quaternion ℝ} (hq : Planar q) (hn : ‖q‖ = 1) {a : Fin 3 → ℝ} (ha : a 1 = 0) : unrot q a 1 = 0 := by
  have h := congrArg (fun q => q.imJ) (unrot_unit (normSq_of_norm hn) a)
  refine Eq.trans h ?_
  simp [pureQ, Quaternion.re_mul, Quaternion.imI_mul, Quaternion.imJ_mul, Quaternion.imK_mul, hq.1, hq.2, ha]

theorem planar_accQ {a : Fin 3 → ℝ} (ha : a 1 = 0) (h2 : a 2 < 0) : Planar (accQ a) := by
  unfold accQ
  rw [if_pos h2]
  constructor <;> simp [ha]

/-- The samples: gravity along the third axis, read with an error that changes sign every time, and a gyrometer that always
reads the rate 1/25 about the second axis. -/
noncomputable def shakenSample (k : ℕ) : Sample :=
  ⟨![0, 1 / 25, 0], ![(-1) ^ k * (400 / 40001), 0, -(39999 / 40001)], ![0, 1, 0]⟩

theorem shaken_norm (k : ℕ) : norm3 ((shakenSample k).acc plainA) = 1 := by
  have : (shakenSample k).acc plainA = ![(-1) ^ k * (400 / 40001), 0, -(39999 / 40001)] := plainA_correct _ _ _
  rw [this]
  unfold norm3
  rw [Real.sqrt_eq_one]
  show ((-1) ^ k * (400 / 40001)) ^ 2 + 0 ^ 2 + (-(39999 / 40001)) ^ 2 = (1 : ℝ)
  rw [mul_pow, ← pow_mul, mul_comm k 2, pow_mul]
  norm_num

theorem shaken_shaken : Shaken plainG plainA (1 / 100) 0 1 1 (1 / 25) (fun _ => ![0, 0, -1]) shakenSample := by
  refine ⟨fun k => ?_, fun k => (shaken_norm k).ge, fun k => (shaken_norm k).le, fun k => ?_, fun k => ?_⟩
  · have : (shakenSample k).acc plainA = ![(-1) ^ k * (400 / 40001), 0, -(39999 / 40001)] := plainA_correct _ _ _
    rw [this]
    refine Real.sqrt_le_iff.mpr ⟨by norm_num, ?_⟩
    show ((-1) ^ k * (400 / 40001) - 0) ^ 2 + (0 - 0) ^ 2 + (-(39999 / 40001) - -1) ^ 2 ≤ (1 / 100 : ℝ) ^ 2
    rw [sub_zero, mul_pow, ← pow_mul, mul_comm k 2, pow_mul]
    norm_num
  · have : (shakenSample k).rate plainG = mkQ 0 0 (1 / 25) 0 := plainG_rate _ _ _
    rw [this, norm_mkQ, Real.sqrt_le_left (by norm_num)]
    norm_num
  · rw [sub_self]
    simp [norm3]

theorem planar_step (hs : Aqua.Set i dg da dm s) (hi : AquaInit.Fixed i τ α 0 t u) (hA : Shows s A) (hn : ‖A‖ = 1) (hu : u < 1)
    {n T w : ℝ} (hna : norm3 (y.acc da) = n) (hT : T = tilt A (y.acc da) + n * (|τ| * ‖y.rate dg‖)) (hT1 : T < n)
    (ht : t < √((1 + n - T) / 2)) (hp : Planar A) (hr : y.rate dg = mkQ 0 0 w 0) (h1 : y.acc da 1 = 0)
    (hm : y.field dm = ![0, 1, 0]) :
    ∃ s' Q, feed y s = (.ok (), s') ∧ Shows s' Q ∧ Planar Q := by
  obtain ⟨P, hP⟩ : ∃ P, P = predQ A (y.rate dg) τ := ⟨_, rfl⟩
  have hω : (y.rate dg).re = 0 := AR.rate_re _ _ _
  have hPn : ‖P‖ = 1 := hP ▸ predQ_unit (eps_lt_norm hn) hω
  have hPp : Planar P := by
    rw [hP]
    refine (hp.add ((hp.mul ?_).smul _)).unitOf
    rw [hr]
    exact ⟨rfl, rfl⟩
  obtain ⟨I, hI⟩ : ∃ I, I = lerpQ α (accQ (unrot P (y.acc da))) := ⟨_, rfl⟩
  have hPA : ‖P - A‖ ≤ |τ| * ‖y.rate dg‖ / 2 := hP ▸ predQ_dist hn hω τ
  have hn0 : 0 ≤ n := hna ▸ norm3_nonneg _
  have hTP : tilt P (y.acc da) ≤ T := by
    refine (tilt_att hPn hn _).trans ?_
    rw [hT, hna]
    have := mul_le_mul_of_nonneg_right hPA hn0
    linarith
  have hz : unrot P (y.acc da) 2 < 0 := by
    have : tilt P (y.acc da) = n + unrot P (y.acc da) 2 := by rw [tilt, ← unrot_unit (normSq_of_norm hPn), hna]; rfl
    linarith
  have hIp : Planar I := by
    rw [hI]
    exact ((planar_one.smul _).add ((planar_accQ (hPp.turns hPn h1) hz).smul _)).unitOf
  have hre : (accQ (unrot P (y.acc da))).re = √((1 - unrot P (y.acc da) 2) / 2) := by
    unfold accQ
    rw [if_pos hz]
    rfl
  have hInter : Inter α t (accQ (unrot P (y.acc da))) I := by
    rw [hI]
    refine Or.inl ⟨?_, rfl⟩
    rw [hre]
    have : tilt P (y.acc da) = n + unrot P (y.acc da) 2 := by rw [tilt, ← unrot_unit (normSq_of_norm hPn), hna]; rfl
    exact lt_of_lt_of_le ht (Real.sqrt_le_sqrt (by linarith))
  have hng : norm3 (unrot P (y.acc da)) = n := by rw [unrot_norm (normSq_of_norm hPn), hna]
  have hI1 : ‖I‖ = 1 := by
    have e : unrot P (y.acc da) = ![unrot P (y.acc da) 0, unrot P (y.acc da) 1, unrot P (y.acc da) 2] := by
      funext j
      fin_cases j <;> rfl
    rw [e] at hInter
    refine (acc_turn hi.alpha_range hz (n := n) (by rw [← hng, norm3_sq]) rfl rfl rfl ?_ hInter).1
    rw [← hre]
    rcases hInter with ⟨h, -⟩ | ⟨h, h', -⟩
    · rwa [← e] at h
    · exfalso
      rw [← e, hre] at h
      have : tilt P (y.acc da) = n + unrot P (y.acc da) 2 := by rw [tilt, ← unrot_unit (normSq_of_norm hPn), hna]; rfl
      exact absurd (lt_of_lt_of_le ht (Real.sqrt_le_sqrt (show (1 + n - T) / 2 ≤ (1 - unrot P (y.acc da) 2) / 2 by linarith)))
        (not_lt.mpr h)
  have hB : ‖P * I‖ = 1 := by rw [norm_mul, hPn, hI1, one_mul]
  have hok := (C119_succeeds hs hi hA hn hu hna hT hT1 ht hP hI (by rw [hm]; norm_num [norm3]; exact AR.eps_lt_one)
    (by rw [hm]; exact (hPp.mul hIp).keeps hB)).mpr (by norm_num)
  obtain ⟨I', J, k, k'⟩ := fixed_inv hs.started hi hA hs.gyr hs.acc hs.mag (s' := (feed y s).2) (Prod.ext hok rfl)
  obtain rfl := inter_zero k.mag
  have ka := k.acc
  rw [← hP] at ka k'
  obtain rfl := inter_unique hInter ka
  exact ⟨_, _, Prod.ext hok rfl, k', ((hPp.mul hIp).mul planar_one).unitOf⟩

end Aqua

/-- C119: the filter with the gain 1/2 for the acceleration that starts level reads an acceleration that is never right and
a rate that always pushes it to the same side.  All its updates succeed, and its tilt is never above 0.26. -/
example : ∃ s, Started (args .MARG false (1 / 2) 0 1) s ∧ Shows s 1 ∧
    ∀ N, (feed (shakenSample N) (feeds s ((List.range N).map shakenSample))).1 = .ok () ∧
      ∃ Q, Shows (feeds s ((List.range N).map shakenSample)) Q ∧ ‖Q‖ = 1 ∧ tilt Q ![0, 0, -1] ≤ 13 / 50 := by
  obtain ⟨s0, s, -, -, hs, h1, hg, ha, hm⟩ := started .MARG false (1 / 2) 0 1
  have hset : Aqua.Set (args .MARG false (1 / 2) 0 1) plainG plainA plainM s := ⟨hs, hg rfl, ha, hm⟩
  have hf := fixed_args (show (0 : ℝ) ≤ 1 / 2 ∧ (1 / 2 : ℝ) ≤ 1 by norm_num) (show (0 : ℝ) ≤ 0 ∧ (0 : ℝ) ≤ 1 by norm_num) 1
  have n1 : ‖(1 : Quaternion ℝ)‖ = 1 := norm_one
  have ht : (9 / 10 : ℝ) < √((1 + 1 - (13 / 50 + 1 / 25)) / 2) := by
    rw [Real.lt_sqrt (by norm_num)]
    norm_num
  have key := fun N hok => C119_track (ρ := 4 / 5) (c := 1 / 25) (M := 13 / 50) hset hf (by norm_num) h1 n1 shaken_shaken one_pos
    (by norm_num) (by rw [abs_of_pos (by norm_num)]; norm_num) (by norm_num [tilt, norm3, pureQ]) (by norm_num) (by norm_num) ht N hok
  have main : ∀ N, (∀ k < N, (feed (shakenSample k) (feeds s ((List.range k).map shakenSample))).1 = .ok ()) ∧
      Aqua.Set (args .MARG false (1 / 2) 0 1) plainG plainA plainM (feeds s ((List.range N).map shakenSample)) ∧
      ∃ Q, Shows (feeds s ((List.range N).map shakenSample)) Q ∧ Planar Q := by
    intro N
    induction N with
    | zero => exact ⟨by simp, hset, 1, h1, planar_one⟩
    | succ N ih =>
      obtain ⟨i1, i2, Q, i3, i4⟩ := ih
      obtain ⟨Q', k1, k2, k3, k4, -⟩ := key N i1
      obtain rfl := shows_inj i3 k1
      have hr : (shakenSample N).rate plainG = mkQ 0 0 (1 / 25) 0 := plainG_rate _ _ _
      have hT : tilt Q ((shakenSample N).acc plainA) + 1 * (|1 / 2| * ‖(shakenSample N).rate plainG‖) ≤ 13 / 50 + 1 / 25 := by
        have j1 := tilt_vec k2 ((shakenSample N).acc plainA) ![0, 0, -1]
        have j2 := shaken_shaken.acc N
        have j3 := shaken_shaken.rate N
        rw [abs_of_pos (by norm_num)]
        linarith
      obtain ⟨s', Q', e, j1, j2⟩ := planar_step i2 hf i3 k2 (by norm_num) (shaken_norm N) rfl (by linarith)
        (lt_of_lt_of_le ht (Real.sqrt_le_sqrt (by linarith))) i4 hr (by
          have : (shakenSample N).acc plainA = ![(-1) ^ N * (400 / 40001), 0, -(39999 / 40001)] := plainA_correct _ _ _
          rw [this]
          rfl) (plainM_correct _ _ _)
      refine ⟨fun k hk => ?_, ?_⟩
      · rcases Nat.lt_succ_iff_lt_or_eq.mp hk with h | rfl
        · exact i1 k h
        · rw [e]
      · have e2 : feeds s ((List.range (N + 1)).map shakenSample) = s' := by
          rw [List.range_succ, List.map_append, feeds_append]
          show (feed (shakenSample N) _).2 = s'
          rw [e]
        rw [e2]
        have := i2.feed (shakenSample N)
        rw [e] at this
        exact ⟨this, Q', j1, j2⟩
  exact ⟨s, hs, h1, fun N => ⟨(main (N + 1)).1 N (Nat.lt_succ_self N), by
    obtain ⟨Q, k1, k2, -, k4, -⟩ := key N (main N).1
    exact ⟨Q, k1, k2, k4⟩⟩⟩

/-- C119: a level filter at rest refuses a field straight behind. -/
example : ∃ s, Started (args .MARG false (1 / 2) 0 1) s ∧ (feed ⟨![0, 0, 0], ![0, 0, -1], ![-1, 0, 0]⟩ s).1 ≠ .ok () := by
  obtain ⟨s0, s, -, -, hs, h1, hg, ha, hm⟩ := started .MARG false (1 / 2) 0 1
  have hset : Aqua.Set (args .MARG false (1 / 2) 0 1) plainG plainA plainM s := ⟨hs, hg rfl, ha, hm⟩
  have hf := fixed_args (show (0 : ℝ) ≤ 1 / 2 ∧ (1 / 2 : ℝ) ≤ 1 by norm_num) (show (0 : ℝ) ≤ 0 ∧ (0 : ℝ) ≤ 1 by norm_num) 1
  have n1 : ‖(1 : Quaternion ℝ)‖ = 1 := norm_one
  have y1 : Sample.rate plainG ⟨![0, 0, 0], ![0, 0, -1], ![-1, 0, 0]⟩ = 0 :=
    (plainG_rate _ _ _).trans (Quaternion.ext _ _ rfl rfl rfl rfl)
  have y2 : Sample.acc plainA ⟨![0, 0, 0], ![0, 0, -1], ![-1, 0, 0]⟩ = ![0, 0, -1] := plainA_correct _ _ _
  have y3 : Sample.field plainM ⟨![0, 0, 0], ![0, 0, -1], ![-1, 0, 0]⟩ = ![-1, 0, 0] := plainM_correct _ _ _
  have hd : accQ ![0, 0, -1] = 1 := accQ_down
  have hu1 : unrot 1 ![0, 0, -1] = ![0, 0, -1] := pureQ_inj ((unrot_unit (by simp) _).trans (by rw [star_one, one_mul, mul_one]))
  have hL : lerpQ (1 / 2) (1 : Quaternion ℝ) = 1 := by
    unfold lerpQ
    rw [← add_smul, sub_add_cancel, one_smul, unitOf_unit n1]
  refine ⟨s, hs, fun h => ?_⟩
  refine (C119_succeeds (n := 1) (T := 0) (P := 1) (I := 1) (x := -1) (v := 0) (z := 0) hset hf h1 n1 (by norm_num) ?_ ?_ (by norm_num)
    (by norm_num) ?_ ?_ ?_ ?_).mp h ⟨rfl, by norm_num⟩
  · rw [y2]; norm_num [norm3]
  · rw [y1, y2]; norm_num [tilt, norm3, pureQ]
  · rw [y1, predQ_rest n1]
  · rw [y2, hu1, hd, hL]
  · rw [y3]; norm_num [norm3]; exact AR.eps_lt_one
  · rw [y3, one_mul, star_one, one_mul, mul_one]; rfl

end
end Verif
