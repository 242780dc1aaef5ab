import Verif.Props.ArExact
import Mathlib.Analysis.SpecialFunctions.Trigonometric.ArctanDeriv
import Mathlib.Analysis.Calculus.MeanValue
import Mathlib.Analysis.Complex.ExponentialBounds

/-
The Taylor series of the AR filter beyond the first order: what shaking does to the attitude (C113).
-/

set_option linter.unusedSectionVars false

namespace Verif
open Scalar
namespace AR

/-- The series of the filter without its first term, `t + t²/2! + … + tᴺ/N!`. -/
noncomputable def tail (N : ℕ) (t : ℝ) : ℝ := ∑ n ∈ Finset.Icc 1 N, t ^ n / (Nat.factorial n : ℝ)

theorem tail_zero (N : ℕ) : tail N 0 = 0 := by
  unfold tail
  refine Finset.sum_eq_zero fun n hn => ?_
  have := (Finset.mem_Icc.mp hn).1
  rw [zero_pow (by omega), zero_div]

theorem tail_even (N : ℕ) (hN : 2 ≤ N) (t : ℝ) : t ^ 2 ≤ tail N t + tail N (-t) := by
  unfold tail
  rw [← Finset.sum_add_distrib]
  have key : ∀ n ∈ Finset.Icc 1 N, 0 ≤ t ^ n / (Nat.factorial n : ℝ) + (-t) ^ n / (Nat.factorial n : ℝ) := by
    intro n _
    rw [← add_div]
    refine div_nonneg ?_ (by positivity)
    rcases Nat.even_or_odd n with h | h
    · rw [h.neg_pow]
      have := h.pow_nonneg t
      linarith
    · rw [h.neg_pow]
      simp
  refine le_trans (le_of_eq ?_) (Finset.single_le_sum key (Finset.mem_Icc.mpr ⟨by norm_num, hN⟩))
  norm_num [Nat.factorial]

theorem tail_odd (N : ℕ) (hN : 1 ≤ N) {t : ℝ} (ht : 0 ≤ t) : 2 * t ≤ tail N t - tail N (-t) := by
  unfold tail
  rw [← Finset.sum_sub_distrib]
  have key : ∀ n ∈ Finset.Icc 1 N, 0 ≤ t ^ n / (Nat.factorial n : ℝ) - (-t) ^ n / (Nat.factorial n : ℝ) := by
    intro n _
    rw [← sub_div]
    refine div_nonneg ?_ (by positivity)
    rcases Nat.even_or_odd n with h | h
    · rw [h.neg_pow]
      simp
    · rw [h.neg_pow]
      have := pow_nonneg ht n
      linarith
  refine le_trans (le_of_eq ?_) (Finset.single_le_sum key (Finset.mem_Icc.mpr ⟨le_rfl, hN⟩))
  norm_num [Nat.factorial]
  ring

theorem tail_ge (N : ℕ) (hN : 1 ≤ N) {t : ℝ} (ht : 0 ≤ t) : t ≤ tail N t := by
  unfold tail
  have key : ∀ n ∈ Finset.Icc 1 N, 0 ≤ t ^ n / (Nat.factorial n : ℝ) := fun n _ => by positivity
  refine le_trans (le_of_eq ?_) (Finset.single_le_sum key (Finset.mem_Icc.mpr ⟨le_rfl, hN⟩))
  norm_num [Nat.factorial]

theorem tail_le (N : ℕ) {t : ℝ} (ht : 0 ≤ t) : tail N t ≤ Real.exp t - 1 := by
  have h := Real.sum_le_exp_of_nonneg ht (N + 1)
  have e : ∑ n ∈ Finset.range (N + 1), t ^ n / (Nat.factorial n : ℝ) = 1 + tail N t := by
    unfold tail
    rw [Finset.range_eq_Ico, Finset.sum_eq_sum_Ico_succ_bot (by omega)]
    simp only [pow_zero, Nat.factorial_zero, Nat.cast_one, div_one]
    rfl
  linarith

theorem tail_abs (N : ℕ) (t : ℝ) : |tail N (-t)| ≤ tail N |t| := by
  unfold tail
  refine (Finset.abs_sum_le_sum_abs _ _).trans (le_of_eq (Finset.sum_congr rfl fun n _ => ?_))
  rw [abs_div, abs_pow, abs_neg, Nat.abs_cast]

theorem tail_two {N : ℕ} {t : ℝ} (h0 : 0 ≤ t) (h1 : t ≤ 1) : tail N t ≤ 2 := by
  have h2 := tail_le N h0
  have h3 := Real.exp_le_exp.mpr h1
  have := Real.exp_one_lt_d9
  linarith

theorem arctan_dist (x y : ℝ) : |Real.arctan x - Real.arctan y| ≤ |x - y| := by
  have := Convex.norm_image_sub_le_of_norm_deriv_le (f := Real.arctan) (C := 1) (s := Set.univ)
    (fun z _ => Real.differentiableAt_arctan z) (fun z _ => by
      rw [(Real.hasDerivAt_arctan z).deriv, Real.norm_eq_abs, abs_of_pos (by positivity), div_le_one (by positivity)]
      linarith [sq_nonneg z]) convex_univ (Set.mem_univ y) (Set.mem_univ x)
  rwa [one_mul] at this

theorem arctan_le {x : ℝ} (hx : 0 ≤ x) : Real.arctan x ≤ x := by
  have := (le_abs_self _).trans (arctan_dist x 0)
  rwa [Real.arctan_zero, sub_zero, sub_zero, abs_of_nonneg hx] at this

/-! ### The pair of updates on the ratio of the two components -/

/-- The ratio that a pair of opposite samples leaves unchanged. -/
noncomputable def still (N : ℕ) (t : ℝ) : ℝ :=
  (√((tail N t - tail N (-t)) ^ 2 + 4) - (tail N t - tail N (-t))) / 2

/-- The factor by which a pair of opposite samples brings the ratio nearer to it. -/
noncomputable def pull (N : ℕ) (t : ℝ) : ℝ := ((1 - tail N t * tail N (-t)) / (1 + tail N t ^ 2)) ^ 2

theorem still_root (N : ℕ) (t : ℝ) :
    still N t ^ 2 + (tail N t - tail N (-t)) * still N t = 1 ∧ 0 < still N t := by
  unfold still
  generalize tail N t - tail N (-t) = g
  have h1 : √(g ^ 2 + 4) ^ 2 = g ^ 2 + 4 := Real.sq_sqrt (by positivity)
  have h2 : |g| < √(g ^ 2 + 4) := by
    rw [← Real.sqrt_sq_eq_abs]
    exact Real.sqrt_lt_sqrt (sq_nonneg g) (by linarith)
  refine ⟨by linear_combination h1 / 4, ?_⟩
  have := le_abs_self g
  linarith

theorem pull_range {N : ℕ} (hN : 2 ≤ N) {t : ℝ} (ht : 0 < t) : 0 ≤ pull N t ∧ pull N t < 1 := by
  have h1 := tail_ge N (by omega) ht.le
  have h2 := tail_even N hN t
  unfold pull
  refine ⟨sq_nonneg _, ?_⟩
  rw [sq_lt_one_iff_abs_lt_one, abs_lt, lt_div_iff₀ (by positivity), div_lt_iff₀ (by positivity)]
  have h3 := tail_abs N t
  rw [abs_of_pos ht] at h3
  have h4 := abs_le.mp h3
  have f0 : 0 < tail N t := ht.trans_le h1
  have p1 := mul_pos f0 (show 0 < tail N t + tail N (-t) by nlinarith [pow_pos ht 2])
  have p2 := mul_nonneg f0.le (show 0 ≤ tail N t - tail N (-t) by linarith)
  constructor <;> nlinarith

/-- One pair. -/
theorem pair_ratio {f g r r' R : ℝ} (hr : 0 ≤ r) (hR : 0 < R) (hf : 0 < f) (hb : 0 < f + g) (hroot : R ^ 2 + (f - g) * R = 1)
    (h : r' = (f + g + (1 + g ^ 2) * r) / (1 + f ^ 2 + (f + g) * r)) :
    0 ≤ r' ∧ |r' - R| ≤ ((1 - f * g) / (1 + f ^ 2)) ^ 2 * |r - R| := by
  have d0 : 0 < 1 + f ^ 2 + (f + g) * r := by positivity
  have d1 : 0 < 1 + f ^ 2 + (f + g) * R := by positivity
  refine ⟨by rw [h]; positivity, ?_⟩
  have e : r' - R = (1 - f * g) ^ 2 * (r - R) / ((1 + f ^ 2 + (f + g) * r) * (1 + f ^ 2 + (f + g) * R)) := by
    rw [h]
    field_simp
    linear_combination (-(f + g) * (1 + f ^ 2 + (f + g) * r)) * hroot
  rw [e, abs_div, abs_mul, abs_of_nonneg (sq_nonneg _), abs_of_pos (mul_pos d0 d1), div_pow, div_mul_eq_mul_div]
  refine div_le_div_of_nonneg_left (by positivity) (by positivity) ?_
  rw [sq (1 + f ^ 2)]
  refine mul_le_mul ?_ ?_ (by positivity) d0.le <;> nlinarith [mul_nonneg hb.le hr, mul_pos hb hR]

end AR

open AR
section
variable {s s' : AR XR} {i : ARInit XR} {A : Quaternion ℝ} {d : GyrometerConfig ℝ} {τ x y z x' y' z' p : ℝ}

/-- One update about the first axis. -/
theorem axis_step (hs : Started i s) (hm : i.method = .TaylorSeries) (ho : i.order ≤ 20) (hc : i.config = d.fin)
    (ht : i.ts = .fin τ) {w u : ℝ} (hA : Shows s (mkQ w u 0 0)) (hω : d.rate x y z = mkQ 0 p 0 0) (hp : epsilon ℝ < |p|)
    {b : Quaternion ℝ} (hb : b = mkQ (w + AR.tail i.order (-(p * (τ / 2))) * u) (AR.tail i.order (p * (τ / 2)) * w + u) 0 0)
    (hn : epsilon ℝ < ‖b‖) :
    ∃ s', update (.fin x) (.fin y) (.fin z) s = (.ok (), s') ∧ Shows s' (‖b‖⁻¹ • b) := by
  have hmov : epsilon ℝ < ‖d.rate x y z‖ := by
    rw [hω, quat_norm, normSq_mkQ]
    refine hp.trans_le (le_of_eq ?_)
    rw [← Real.sqrt_sq_eq_abs]
    congr 1
    ring
  obtain ⟨s', B, e, hB, hB1, -⟩ := C51_taylor (T := fun k l => _) hs hm ho hc ht hA hmov hω rfl
    (fun k l => rfl) rfl
  refine ⟨s', e, ?_⟩
  have h2n : ∀ a : ℝ, ∑ n ∈ Finset.Icc 1 i.order, a ^ n / (Nat.factorial n : ℝ) = AR.tail i.order a := fun a => rfl
  simp only [h2n] at hB1
  have key := hB1
  simp only [Matrix.mulVec, dotProduct, Fin.sum_univ_four, Matrix.cons_val_zero, Matrix.cons_val_one,
    Matrix.cons_val, Matrix.of_apply, mul_zero, add_zero, zero_mul, Fin.isValue, if_true, Fin.reduceEq, if_false,
    zero_add, mkQ_re, mkQ_imI, mkQ_imJ, mkQ_imK, neg_zero, AR.tail_zero, neg_mul, one_mul] at key
  rw [← hb] at key
  rw [← key hn]
  exact hB

theorem AR.Started.next (hs : Started i s) {a b c : XR} {r : Res AhrsError Unit} (h : AR.update a b c s = (r, s')) :
    Started i s' := by
  obtain ⟨u0, u1, l0, l1, l2⟩ := hs
  have := l2.step (.update a b c)
  have e : (AR.call (.update a b c) s).2 = s' := congrArg Prod.snd h
  rw [e] at this
  exact ⟨u0, u1, l0, l1, this⟩

set_option maxHeartbeats 1000000 in
/-- A pair of opposite samples about the first axis. -/
theorem axis_pair (hs : Started i s) (hm : i.method = .TaylorSeries) (ho : 2 ≤ i.order ∧ i.order ≤ 20) (hc : i.config = d.fin)
    (ht : i.ts = .fin τ) {w u f g t : ℝ} (hA : Shows s (mkQ w u 0 0)) (hw : 0 < w) (hu : 0 ≤ u) (h1 : w ^ 2 + u ^ 2 = 1)
    (hω : d.rate x y z = mkQ 0 p 0 0) (hω' : d.rate x' y' z' = mkQ 0 (-p) 0 0) (hp : epsilon ℝ < |p|) (hpt : p * (τ / 2) = t)
    (t0 : 0 < t) (t1 : t ≤ 1) (hf : f = AR.tail i.order t) (hg : g = AR.tail i.order (-t)) :
    ∃ s1 s2 w' u', update (.fin x) (.fin y) (.fin z) s = (.ok (), s1) ∧
      update (.fin x') (.fin y') (.fin z') s1 = (.ok (), s2) ∧ Shows s2 (mkQ w' u' 0 0) ∧ 0 < w' ∧ 0 ≤ u' ∧
      w' ^ 2 + u' ^ 2 = 1 ∧ u' / w' = (f + g + (1 + g ^ 2) * (u / w)) / (1 + f ^ 2 + (f + g) * (u / w)) := by
  have f0 : 0 < f := hf ▸ t0.trans_le (tail_ge _ (by omega) t0.le)
  have f2 : f ≤ 2 := hf ▸ tail_two t0.le t1
  have hb : 0 < f + g := by
    have := tail_even i.order ho.1 t
    rw [← hf, ← hg] at this
    exact lt_of_lt_of_le (by positivity) this
  have g2 : |g| ≤ 2 := by
    have := tail_abs i.order t
    rw [abs_of_pos t0, ← hf, ← hg] at this
    linarith
  have w1 : w ≤ 1 := abs_le_of_sq_le_sq' (by linarith [sq_nonneg u] : w ^ 2 ≤ 1 ^ 2) one_pos.le |>.2
  have u1 : u ≤ 1 := abs_le_of_sq_le_sq' (by linarith [sq_nonneg w] : u ^ 2 ≤ 1 ^ 2) one_pos.le |>.2
  obtain ⟨g3, g4⟩ := abs_le.mp g2
  have nsq : ∀ a b : ℝ, ‖mkQ a b 0 0‖ ^ 2 = a ^ 2 + b ^ 2 := fun a b => by
    rw [quat_norm, normSq_mkQ, Real.sq_sqrt (by positivity)]
    ring
  -- the first sample
  obtain ⟨n, hn⟩ : ∃ n, n = ‖mkQ (w + g * u) (f * w + u) 0 0‖ := ⟨_, rfl⟩
  have hn2 : n ^ 2 = (w + g * u) ^ 2 + (f * w + u) ^ 2 := by rw [hn, nsq]
  have hn0 : 0 ≤ n := hn ▸ norm_nonneg _
  have n1 : 1 ≤ n := by
    have : 1 ≤ n ^ 2 := by
      rw [hn2]
      have := mul_nonneg (mul_nonneg hw.le hu) hb.le
      have e : (w + g * u) ^ 2 + (f * w + u) ^ 2 = (w ^ 2 + u ^ 2) + 2 * (w * u * (f + g)) + (g * u) ^ 2 + (f * w) ^ 2 := by ring
      rw [e, h1]
      linarith [sq_nonneg (g * u), sq_nonneg (f * w)]
    exact abs_le_of_sq_le_sq' (by linarith : (1 : ℝ) ^ 2 ≤ n ^ 2) hn0 |>.2
  have n5 : n ≤ 5 := by
    have a1 : |w + g * u| ≤ 3 := by
      rw [abs_le]
      have := mul_le_mul_of_nonneg_right g3 hu
      have := mul_le_mul_of_nonneg_right g4 hu
      constructor <;> linarith
    have a2 : |f * w + u| ≤ 3 := by
      have := mul_le_mul_of_nonneg_right f2 hw.le
      rw [abs_of_nonneg (by positivity)]
      linarith
    have a3 := sq_le_sq' (abs_le.mp a1).1 (abs_le.mp a1).2
    have a4 := sq_le_sq' (abs_le.mp a2).1 (abs_le.mp a2).2
    refine abs_le_of_sq_le_sq' (b := 5) (by linarith) (by norm_num) |>.2
  obtain ⟨s1, e1, k1⟩ := axis_step hs hm ho.2 hc ht hA hω hp (b := mkQ (w + g * u) (f * w + u) 0 0)
    (by rw [hpt, ← hf, ← hg]) (by rw [← hn]; exact lt_of_lt_of_le eps_lt_one n1)
  rw [← hn, mkQ_smul, mul_zero] at k1
  -- the second sample
  obtain ⟨b2, hb2⟩ : ∃ b2, b2 = mkQ (n⁻¹ * (w + g * u) + f * (n⁻¹ * (f * w + u))) (g * (n⁻¹ * (w + g * u)) + n⁻¹ * (f * w + u)) 0 0 :=
    ⟨_, rfl⟩
  obtain ⟨r, hr⟩ : ∃ r, r = u / w := ⟨_, rfl⟩
  have hru : u = r * w := by rw [hr, div_mul_cancel₀ _ hw.ne']
  have r0 : 0 ≤ r := hr ▸ div_nonneg hu hw.le
  have q0 : 0 < 1 + f ^ 2 + (f + g) * r := by positivity
  have q1 : 0 < f + g + (1 + g ^ 2) * r := by positivity
  have hb2' : b2 = mkQ (n⁻¹ * w * (1 + f ^ 2 + (f + g) * r)) (n⁻¹ * w * (f + g + (1 + g ^ 2) * r)) 0 0 := by
    rw [hb2, hru]
    congr 1 <;> ring
  have i0 : 0 < n⁻¹ := inv_pos.mpr (by linarith)
  obtain ⟨m, hm'⟩ : ∃ m, m = ‖b2‖ := ⟨_, rfl⟩
  have hm2 : m ^ 2 = (n⁻¹ * w) ^ 2 * ((1 + f ^ 2 + (f + g) * r) ^ 2 + (f + g + (1 + g ^ 2) * r) ^ 2) := by
    rw [hm', hb2', nsq]
    ring
  have hm0 : 0 ≤ m := hm' ▸ norm_nonneg _
  have m1 : 1 / 5 ≤ m := by
    have a1 : 1 + r ^ 2 ≤ (1 + f ^ 2 + (f + g) * r) ^ 2 + (f + g + (1 + g ^ 2) * r) ^ 2 := by
      have b1 : 1 ≤ 1 + f ^ 2 + (f + g) * r := by linarith [mul_nonneg hb.le r0, sq_nonneg f]
      have b2 : r ≤ f + g + (1 + g ^ 2) * r := by linarith [mul_nonneg (sq_nonneg g) r0]
      have := pow_le_pow_left₀ zero_le_one b1 2
      have := pow_le_pow_left₀ r0 b2 2
      linarith
    have a2 : w ^ 2 * (1 + r ^ 2) = 1 := by linear_combination h1 - (u + r * w) * hru
    have a3 : (1 / 5 : ℝ) ≤ n⁻¹ := by
      rw [one_div]
      exact inv_anti₀ (by linarith) n5
    have a4 : (1 / 5) ^ 2 ≤ m ^ 2 := by
      rw [hm2, mul_pow]
      calc (1 / 5 : ℝ) ^ 2 ≤ n⁻¹ ^ 2 * 1 := by rw [mul_one]; exact pow_le_pow_left₀ (by norm_num) a3 2
        _ = n⁻¹ ^ 2 * (w ^ 2 * (1 + r ^ 2)) := by rw [a2]
        _ ≤ n⁻¹ ^ 2 * (w ^ 2 * ((1 + f ^ 2 + (f + g) * r) ^ 2 + (f + g + (1 + g ^ 2) * r) ^ 2)) := by gcongr
        _ = _ := by ring
    exact abs_le_of_sq_le_sq' a4 hm0 |>.2
  obtain ⟨s2, e2, k2⟩ := axis_step (hs.next e1) hm ho.2 hc ht k1 hω' (by rw [abs_neg]; exact hp) (b := b2)
    (by rw [hb2, neg_mul, hpt, neg_neg, ← hf, ← hg]) (by rw [← hm']; exact lt_of_lt_of_le (by norm_num [epsilon]) m1)
  rw [← hm', hb2', mkQ_smul, mul_zero] at k2
  have j0 : 0 < m⁻¹ := inv_pos.mpr (by linarith)
  refine ⟨s1, s2, _, _, e1, e2, k2, by positivity, by positivity, ?_, ?_⟩
  · have : m⁻¹ * m = 1 := inv_mul_cancel₀ (by linarith)
    calc _ = m⁻¹ ^ 2 * ((n⁻¹ * w) ^ 2 * ((1 + f ^ 2 + (f + g) * r) ^ 2 + (f + g + (1 + g ^ 2) * r) ^ 2)) := by ring
      _ = (m⁻¹ * m) ^ 2 := by rw [← hm2]; ring
      _ = 1 := by rw [this, one_pow]
  · rw [← hr]
    rw [mul_div_mul_left _ _ j0.ne', mul_div_mul_left _ _ (mul_pos i0 hw).ne']

/-- C113: shaking about the first axis, with a Taylor series of order 2 to 20.  The samples alternate between the rate `p`
and the rate `-p`, with `t = p τ / 2` in (0, 1], from the identity.  Every update succeeds, and after `k` pairs the
attitude is a turn about the first axis by an angle that tends to `arctan (2 / (f(t) - f(-t)))`, `f` being the series
without its first term: a quarter turn up to `t + t²`. -/
theorem C113_shake (hs : Started i s) (hm : i.method = .TaylorSeries) (ho : 2 ≤ i.order ∧ i.order ≤ 20) (hc : i.config = d.fin)
    (hτ : i.ts = .fin τ) (hA : Shows s 1) (hω : d.rate x y z = mkQ 0 p 0 0) (hω' : d.rate x' y' z' = mkQ 0 (-p) 0 0)
    (hp : epsilon ℝ < |p|) {t : ℝ} (ht : t = p * (τ / 2)) (t0 : 0 < t) (t1 : t ≤ 1) (k : ℕ) :
    ∃ s1 s2 s3 θ, (fun s => (update (.fin x') (.fin y') (.fin z') (update (.fin x) (.fin y) (.fin z) s).2).2)^[k] s = s1 ∧
      update (.fin x) (.fin y) (.fin z) s1 = (.ok (), s2) ∧ update (.fin x') (.fin y') (.fin z') s2 = (.ok (), s3) ∧
      Shows s1 (mkQ (Real.cos (θ / 2)) (Real.sin (θ / 2)) 0 0) ∧
      |θ - Real.arctan (2 / (AR.tail i.order t - AR.tail i.order (-t)))| ≤ 2 * pull i.order t ^ k ∧ pull i.order t < 1 ∧
      Real.pi / 2 - (t + t ^ 2) ≤ Real.arctan (2 / (AR.tail i.order t - AR.tail i.order (-t))) := by
  have hN := ho.1
  obtain ⟨R, hR⟩ : ∃ R, R = still i.order t := ⟨_, rfl⟩
  obtain ⟨hroot, R0⟩ := still_root i.order t
  rw [← hR] at hroot R0
  obtain ⟨κ0, κ1⟩ := pull_range hN t0
  have hf0 := t0.trans_le (tail_ge i.order (by omega) t0.le)
  have hb0 := lt_of_lt_of_le (pow_pos t0 2) (tail_even i.order hN t)
  have hg0 := tail_odd i.order (by omega) t0.le
  have hlim : 2 * Real.arctan R = Real.arctan (2 / (AR.tail i.order t - AR.tail i.order (-t))) := by
    have R1 : R < 1 := by
      by_contra hcon
      have h1 := one_le_pow₀ (n := 2) (not_lt.mp hcon)
      have h2 := mul_pos (show 0 < AR.tail i.order t - AR.tail i.order (-t) by linarith) R0
      linarith
    rw [Real.two_mul_arctan (by linarith) R1, show 1 - R ^ 2 = (AR.tail i.order t - AR.tail i.order (-t)) * R by linarith,
      mul_div_mul_right _ _ R0.ne']
  have R1 : R ≤ 1 := by
    by_contra hcon
    have h1 := one_le_pow₀ (n := 2) (not_le.mp hcon).le
    have h2 := mul_pos (show 0 < AR.tail i.order t - AR.tail i.order (-t) by linarith) R0
    linarith
  have key : ∀ k, ∃ s1 w u, (fun s => (update (.fin x') (.fin y') (.fin z') (update (.fin x) (.fin y) (.fin z) s).2).2)^[k] s = s1 ∧
      Started i s1 ∧ Shows s1 (mkQ w u 0 0) ∧ 0 < w ∧ 0 ≤ u ∧ w ^ 2 + u ^ 2 = 1 ∧ |u / w - R| ≤ pull i.order t ^ k := by
    intro k
    induction k with
    | zero =>
      refine ⟨s, 1, 0, rfl, hs, by rw [mkQ_one]; exact hA, one_pos, le_rfl, by norm_num, ?_⟩
      rw [zero_div, zero_sub, abs_neg, abs_of_pos R0, pow_zero]
      exact R1
    | succ k ih =>
      obtain ⟨s1, w, u, e, hs1, hA1, hw, hu, h1, hk⟩ := ih
      obtain ⟨s2, s3, w', u', e1, e2, hA2, hw', hu', h1', hr⟩ := axis_pair hs1 hm ho hc hτ hA1 hw hu h1 hω hω' hp ht.symm t0 t1 rfl rfl
      obtain ⟨-, q1⟩ := pair_ratio (div_nonneg hu hw.le) R0 hf0 hb0 hroot hr
      refine ⟨s3, w', u', ?_, (hs1.next e1).next e2, hA2, hw', hu', h1', ?_⟩
      · rw [Function.iterate_succ_apply', e]
        show (update _ _ _ (update _ _ _ s1).2).2 = s3
        rw [e1]
        exact congrArg Prod.snd e2
      · rw [pow_succ', ]
        exact q1.trans (mul_le_mul_of_nonneg_left hk κ0)
  obtain ⟨s1, w, u, e, hs1, hA1, hw, hu, h1, hk⟩ := key k
  obtain ⟨s2, s3, w', u', e1, e2, -⟩ := axis_pair hs1 hm ho hc hτ hA1 hw hu h1 hω hω' hp ht.symm t0 t1 rfl rfl
  have hsq : √(1 + (u / w) ^ 2) = 1 / w := by
    rw [show 1 + (u / w) ^ 2 = (1 / w) ^ 2 by field_simp; linarith, Real.sqrt_sq (by positivity)]
  refine ⟨s1, s2, s3, 2 * Real.arctan (u / w), e, e1, e2, ?_, ?_, κ1, ?_⟩
  · rw [mul_div_cancel_left₀ _ two_ne_zero, Real.cos_arctan, Real.sin_arctan, hsq]
    rw [show 1 / (1 / w) = w by field_simp, show u / w / (1 / w) = u by field_simp]
    exact hA1
  · rw [← hlim, ← mul_sub, abs_mul, abs_of_pos two_pos]
    refine mul_le_mul_of_nonneg_left (le_trans ?_ hk) two_pos.le
    exact arctan_dist _ _
  · have hg : 0 < AR.tail i.order t - AR.tail i.order (-t) := by linarith
    have h2 : (AR.tail i.order t - AR.tail i.order (-t)) / 2 ≤ t + t ^ 2 := by
      have a1 := tail_le i.order t0.le
      have a2 := tail_abs i.order t
      rw [abs_of_pos t0] at a2
      have a3 := (abs_le.mp a2).1
      have a4 := (abs_le.mp (Real.abs_exp_sub_one_sub_id_le (show |t| ≤ 1 by rw [abs_of_pos t0]; exact t1))).2
      linarith
    have h3 : 2 / (AR.tail i.order t - AR.tail i.order (-t)) = ((AR.tail i.order t - AR.tail i.order (-t)) / 2)⁻¹ := by
      rw [inv_div]
    rw [h3, Real.arctan_inv_of_pos (by linarith)]
    have h4 : Real.arctan ((AR.tail i.order t - AR.tail i.order (-t)) / 2) ≤ (AR.tail i.order t - AR.tail i.order (-t)) / 2 :=
      arctan_le (by linarith)
    linarith

/-- C113: so the attitude ends as close as wanted to within `t + t²` of a quarter turn, though the rates sum to zero. -/
theorem C113_quarter (hs : Started i s) (hm : i.method = .TaylorSeries) (ho : 2 ≤ i.order ∧ i.order ≤ 20) (hc : i.config = d.fin)
    (hτ : i.ts = .fin τ) (hA : Shows s 1) (hω : d.rate x y z = mkQ 0 p 0 0) (hω' : d.rate x' y' z' = mkQ 0 (-p) 0 0)
    (hp : epsilon ℝ < |p|) {t : ℝ} (ht : t = p * (τ / 2)) (t0 : 0 < t) (t1 : t ≤ 1) {δ : ℝ} (hδ : 0 < δ) :
    ∃ K, ∀ k ≥ K, ∃ θ, |θ - Real.pi / 2| ≤ t + t ^ 2 + δ ∧
      Shows ((fun s => (update (.fin x') (.fin y') (.fin z') (update (.fin x) (.fin y) (.fin z) s).2).2)^[k] s)
        (mkQ (Real.cos (θ / 2)) (Real.sin (θ / 2)) 0 0) := by
  obtain ⟨κ0, κ1⟩ := pull_range ho.1 t0
  obtain ⟨K, hK⟩ := exists_pow_lt_of_lt_one (half_pos hδ) κ1
  refine ⟨K, fun k hk => ?_⟩
  obtain ⟨s1, -, -, θ, e, -, -, h, h1, -, h2⟩ := C113_shake hs hm ho hc hτ hA hω hω' hp ht t0 t1 k
  refine ⟨θ, ?_, by rw [e]; exact h⟩
  have h3 := pow_le_pow_of_le_one κ0 κ1.le hk
  have h4 := Real.arctan_lt_pi_div_two (2 / (AR.tail i.order t - AR.tail i.order (-t)))
  rw [abs_le] at h1 ⊢
  constructor <;> linarith [h1.1, h1.2, pow_pos t0 2]

/-- Undoing a normalised factor. -/
theorem undo_right {A V : Quaternion ℝ} (hA : ‖A‖ = 1) (hV : V ≠ 0) :
    ‖‖A * V‖⁻¹ • (A * V) * star V‖⁻¹ • (‖A * V‖⁻¹ • (A * V) * star V) = A := by
  have n0 : ‖V‖ ≠ 0 := norm_ne_zero_iff.mpr hV
  have e : ‖A * V‖⁻¹ • (A * V) * star V = ‖V‖ • A := by
    rw [smul_mul_assoc, mul_assoc, Quaternion.self_mul_star, norm_mul, hA, one_mul, Quaternion.normSq_eq_norm_mul_self,
      ← Quaternion.coe_commutes, Quaternion.coe_mul_eq_smul, smul_smul]
    congr 1
    field_simp
  rw [e, norm_smul, hA, mul_one, norm_norm, smul_smul, inv_mul_cancel₀ n0, one_smul]

theorem undo_left {A V : Quaternion ℝ} (hA : ‖A‖ = 1) (hV : V ≠ 0) :
    ‖star V * (‖V * A‖⁻¹ • (V * A))‖⁻¹ • (star V * (‖V * A‖⁻¹ • (V * A))) = A := by
  have n0 : ‖V‖ ≠ 0 := norm_ne_zero_iff.mpr hV
  have e : star V * (‖V * A‖⁻¹ • (V * A)) = ‖V‖ • A := by
    rw [mul_smul_comm, ← mul_assoc, Quaternion.star_mul_self, norm_mul, hA, mul_one, Quaternion.normSq_eq_norm_mul_self,
      Quaternion.coe_mul_eq_smul, smul_smul]
    congr 1
    field_simp
  rw [e, norm_smul, hA, mul_one, norm_norm, smul_smul, inv_mul_cancel₀ n0, one_smul]

/-- C113: with the closed form, Euler's method and the first-order series a sample with the opposite rate undoes a sample
exactly, from any unit attitude and about any axis. -/
theorem C113_back (hs : Started i s) (hm : i.method = .ClosedForm ∨ i.method = .Euler ∨ i.method = .TaylorSeries ∧ i.order = 1)
    (hc : i.config = d.fin) (hτ : i.ts = .fin τ) (hA : Shows s A) (hu : ‖A‖ = 1)
    (hω : d.rate x' y' z' = -d.rate x y z) :
    ∃ s1 s2, update (.fin x) (.fin y) (.fin z) s = (.ok (), s1) ∧ update (.fin x') (.fin y') (.fin z') s1 = (.ok (), s2) ∧
      Shows s2 A := by
  by_cases hmov : epsilon ℝ < ‖d.rate x y z‖
  · have hmov' : epsilon ℝ < ‖d.rate x' y' z'‖ := by rw [hω, norm_neg]; exact hmov
    have hV : (1 + (τ / 2) • d.rate x y z : Quaternion ℝ) ≠ 0 := fun h0 => by
      have := one_le_norm_step (ω := d.rate x y z) rfl (τ / 2)
      rw [h0, norm_zero] at this
      linarith
    have hst : star (1 + (τ / 2) • d.rate x y z : Quaternion ℝ) = 1 + (τ / 2) • d.rate x' y' z' := by
      have : star (d.rate x y z) = -d.rate x y z := by
        apply Quaternion.ext <;> simp [rate_re]
      rw [star_add, star_one, Quaternion.star_smul, this, hω]
    rcases hm with hm | hm | ⟨hm, ho⟩
    · obtain ⟨s1, e1, h1⟩ := C49_closed hs hm hc hτ hA hu hmov
      obtain ⟨s2, e2, h2⟩ := C49_closed (hs.next e1) hm hc hτ h1 (by rw [norm_mul, hu, norm_rotation rfl, one_mul]) hmov'
      refine ⟨s1, s2, e1, e2, ?_⟩
      let _ : NormedAlgebra ℚ (Quaternion ℝ) := .restrictScalars ℚ ℝ (Quaternion ℝ)
      rw [hω, smul_neg, mul_assoc, NormedSpace.exp_neg, mul_inv_cancel₀, mul_one] at h2
      · exact h2
      · intro h0
        have := norm_rotation (ω := d.rate x y z) rfl τ
        rw [h0, norm_zero] at this
        exact zero_ne_one this
    · obtain ⟨s1, e1, h1⟩ := C50_euler hs hm hc hτ hA hu hmov
      have e : A + (τ / 2) • (d.rate x y z * A) = (1 + (τ / 2) • d.rate x y z) * A := by
        rw [add_mul, one_mul, smul_mul_assoc]
      rw [e] at h1
      generalize hB : ‖(1 + (τ / 2) • d.rate x y z) * A‖⁻¹ • ((1 + (τ / 2) • d.rate x y z) * A) = B at h1
      have hB1 : ‖B‖ = 1 := by
        rw [← hB, norm_smul, norm_inv, norm_norm]
        exact inv_mul_cancel₀ (by rw [norm_mul, hu, mul_one]; exact norm_ne_zero_iff.mpr hV)
      obtain ⟨s2, e2, h2⟩ := C50_euler (hs.next e1) hm hc hτ h1 hB1 hmov'
      have e' : B + (τ / 2) • (d.rate x' y' z' * B) = star (1 + (τ / 2) • d.rate x y z) * B := by
        rw [hst, add_mul, one_mul, smul_mul_assoc]
      rw [e', ← hB, undo_left hu hV] at h2
      exact ⟨s1, s2, e1, e2, h2⟩
    · obtain ⟨s1, e1, h1⟩ := C50_taylor hs hm ho hc hτ hA hu hmov
      have e : A + (τ / 2) • (A * d.rate x y z) = A * (1 + (τ / 2) • d.rate x y z) := by
        rw [mul_add, mul_one, mul_smul_comm]
      rw [e] at h1
      generalize hB : ‖A * (1 + (τ / 2) • d.rate x y z)‖⁻¹ • (A * (1 + (τ / 2) • d.rate x y z)) = B at h1
      have hB1 : ‖B‖ = 1 := by
        rw [← hB, norm_smul, norm_inv, norm_norm]
        exact inv_mul_cancel₀ (by rw [norm_mul, hu, one_mul]; exact norm_ne_zero_iff.mpr hV)
      obtain ⟨s2, e2, h2⟩ := C50_taylor (hs.next e1) hm ho hc hτ h1 hB1 hmov'
      have e' : B + (τ / 2) • (B * d.rate x' y' z') = B * star (1 + (τ / 2) • d.rate x y z) := by
        rw [hst, mul_add, mul_one, mul_smul_comm]
      rw [e', ← hB, undo_right hu hV] at h2
      exact ⟨s1, s2, e1, e2, h2⟩
  · obtain ⟨⟨f, h⟩, -, -, -, h4⟩ := hs.ready
    obtain ⟨s1, e1, h1⟩ := h.stays hA (h4.trans (by rw [hc])) x y z (not_lt.mp hmov)
    obtain ⟨⟨f', h'⟩, -, -, -, h4'⟩ := (hs.next e1).ready
    obtain ⟨s2, e2, h2⟩ := h'.stays h1 (h4'.trans (by rw [hc])) x' y' z' (by rw [hω, norm_neg]; exact not_lt.mp hmov)
    exact ⟨s1, s2, e1, e2, h2⟩

/-- C113: an update of any order up to 20 from the identity replaces each component of half the rotation vector by the
series without its first term. -/
theorem C113_series (hs : Started i s) (hm : i.method = .TaylorSeries) (ho : i.order ≤ 20) (hc : i.config = d.fin)
    (hτ : i.ts = .fin τ) (hA : Shows s 1) (hmov : epsilon ℝ < ‖d.rate x y z‖) {p q r : ℝ}
    (hω : (τ / 2) • d.rate x y z = mkQ 0 p q r) {b : Quaternion ℝ}
    (hb : b = mkQ 1 (AR.tail i.order p) (AR.tail i.order q) (AR.tail i.order r)) :
    ∃ s', update (.fin x) (.fin y) (.fin z) s = (.ok (), s') ∧ Shows s' (‖b‖⁻¹ • b) := by
  obtain ⟨P, Q, R, hr⟩ : ∃ P Q R, d.rate x y z = mkQ 0 P Q R := ⟨_, _, _, rfl⟩
  rw [hr, mkQ_smul] at hω
  have h1 : τ / 2 * P = p := congrArg (·.imI) hω
  have h2 : τ / 2 * Q = q := congrArg (·.imJ) hω
  have h3 : τ / 2 * R = r := congrArg (·.imK) hω
  obtain ⟨s', B, e, hB, hB1, -⟩ := C51_taylor (T := fun k l => _) hs hm ho hc hτ hA hmov hr rfl
    (fun k l => rfl) rfl
  refine ⟨s', e, ?_⟩
  have h2n : ∀ a : ℝ, ∑ n ∈ Finset.Icc 1 i.order, a ^ n / (Nat.factorial n : ℝ) = AR.tail i.order a := fun a => rfl
  simp only [h2n] at hB1
  have key := hB1
  simp only [Matrix.mulVec, dotProduct, Fin.sum_univ_four, Matrix.cons_val_zero, Matrix.cons_val_one,
    Matrix.cons_val, Matrix.of_apply, Quaternion.re_one, Quaternion.imI_one, Quaternion.imJ_one,
    Quaternion.imK_one, mul_zero, add_zero, mul_one, zero_mul, Fin.isValue, if_true, Fin.reduceEq, if_false,
    zero_add, AR.tail_zero] at key
  rw [mul_comm _ (τ / 2), mul_comm _ (τ / 2), mul_comm _ (τ / 2), h1, h2, h3, ← hb] at key
  have h1b : 1 ≤ ‖b‖ := by
    rw [quat_norm, hb, normSq_mkQ, Real.one_le_sqrt]
    nlinarith [sq_nonneg (AR.tail i.order p), sq_nonneg (AR.tail i.order q), sq_nonneg (AR.tail i.order r)]
  rw [← key (lt_of_lt_of_le eps_lt_one h1b)]
  exact hB

/-- C113: so from the second order on two filters at the identity turned by opposite rates do not end in inverse
attitudes. -/
theorem C113_reverse {s2 s2' : AR XR} (hs : Started i s) (hs2 : Started i s2)
    (hm : i.method = .TaylorSeries) (ho : 2 ≤ i.order ∧ i.order ≤ 20) (hc : i.config = d.fin) (ht : i.ts = .fin τ)
    (hτ : τ ≠ 0) (hA : Shows s 1) (hA2 : Shows s2 1) (hmov : epsilon ℝ < ‖d.rate x y z‖)
    (hopp : d.rate x' y' z' = -d.rate x y z) {B B' : Quaternion ℝ}
    (h : update (.fin x) (.fin y) (.fin z) s = (.ok (), s')) (hB : Shows s' B)
    (h' : update (.fin x') (.fin y') (.fin z') s2 = (.ok (), s2')) (hB' : Shows s2' B') :
    B' ≠ star B := by
  intro hBB
  obtain ⟨P, Q, R, hr⟩ : ∃ P Q R, d.rate x y z = mkQ 0 P Q R := ⟨_, _, _, rfl⟩
  obtain ⟨t, e, k⟩ := C113_series hs hm ho.2 hc ht hA hmov (hr ▸ mkQ_smul _ _ _ _ _ |>.trans (by rw [mul_zero])) rfl
  obtain ⟨t', e', k'⟩ := C113_series hs2 hm ho.2 hc ht hA2 (by rw [hopp, norm_neg]; exact hmov)
    (hopp ▸ hr ▸ mkQ_neg _ _ _ _ ▸ mkQ_smul _ _ _ _ _ |>.trans (by rw [neg_zero, mul_zero])) rfl
  rw [h] at e
  rw [h'] at e'
  obtain rfl := congrArg Prod.snd e
  obtain rfl := congrArg Prod.snd e'
  rw [hB.unique k, hB'.unique k', mkQ_smul, mkQ_smul, mkQ_star] at hBB
  generalize hn : ‖mkQ 1 (AR.tail i.order (τ / 2 * P)) _ _‖⁻¹ = n at hBB
  generalize ‖mkQ (1 : ℝ) _ _ _‖⁻¹ = n' at hBB
  have e0 : n' * 1 = n * 1 := congrArg (·.re) hBB
  have e1 := congrArg (·.imI) hBB
  have e2 := congrArg (·.imJ) hBB
  have e3 := congrArg (·.imK) hBB
  simp only [mkQ] at e1 e2 e3
  rw [mul_one, mul_one] at e0
  subst e0
  have hn0 : n' ≠ 0 := by
    rw [← hn, quat_norm, normSq_mkQ]
    exact inv_ne_zero (Real.sqrt_pos.mpr (by positivity)).ne'
  have fin : ∀ a : ℝ, n' * AR.tail i.order (τ / 2 * -a) = -(n' * AR.tail i.order (τ / 2 * a)) → a = 0 := by
    intro a ha
    have h1 : n' * (AR.tail i.order (τ / 2 * a) + AR.tail i.order (-(τ / 2 * a))) = 0 := by
      rw [← mul_neg]; linarith
    have h2 := (mul_eq_zero.mp h1).resolve_left hn0
    have h3 := tail_even i.order ho.1 (τ / 2 * a)
    have h4 : (τ / 2 * a) ^ 2 = 0 := le_antisymm (by linarith) (sq_nonneg _)
    have h5 := pow_eq_zero_iff two_ne_zero |>.mp h4
    exact (mul_eq_zero.mp h5).resolve_left (by positivity)
  rw [hr, fin P e1, fin Q e2, fin R e3] at hmov
  have : ‖mkQ (0 : ℝ) 0 0 0‖ = 0 := norm_eq_zero.mpr rfl
  rw [this] at hmov
  exact absurd hmov (not_lt.mpr Linalg.eps_pos.le)

/-- A case of `C113_shake`, with the order 2, the step 1/50 and the rates 1 and -1 about the first axis: `t = 1/100`. -/
example : ∃ (i : ARInit XR) (s : AR XR), Started i s ∧ i.method = .TaylorSeries ∧ (2 ≤ i.order ∧ i.order ≤ 20) ∧
    i.config = AR.sampleConfig.fin ∧ i.ts = .fin (1 / 50) ∧ Shows s 1 ∧ AR.sampleConfig.rate 1 1 0 = mkQ 0 1 0 0 ∧
    AR.sampleConfig.rate (-1) 1 0 = mkQ 0 (-1) 0 0 ∧ epsilon ℝ < |(1 : ℝ)| ∧ (1 / 100 : ℝ) = 1 * (1 / 50 / 2) := by
  obtain ⟨s, h1, h2⟩ := AR.exists_started (w := 1) (x := 0) (y := 0) (z := 0)
    (i := { AR.sampleInit .TaylorSeries 2 (1 / 50) with qw := .fin 1, qx := .fin 0 })
    (d := AR.sampleConfig) rfl rfl rfl rfl rfl
  refine ⟨_, s, h1, rfl, ⟨le_rfl, by decide⟩, rfl, rfl, mkQ_one ▸ h2, ?_, ?_, ?_, by norm_num⟩
  · rw [AR.sample_rate]
    norm_num
  · rw [AR.sample_rate]
    norm_num
  · rw [abs_one]
    exact eps_lt_one

/-- A case of `C113_back`: (−3, 1, −4) is read as the opposite of the rate (3, 0, 4). -/
example (m : NIM) (hm : m = .ClosedForm ∨ m = .Euler ∨ m = .TaylorSeries) : ∃ s s1 s2, Started (AR.sampleInit m 1 1) s ∧
    AR.update (.fin 3) (.fin 1) (.fin 4) s = (.ok (), s1) ∧ AR.update (.fin (-3)) (.fin 1) (.fin (-4)) s1 = (.ok (), s2) ∧
    Shows s2 (mkQ (3 / 5) (4 / 5) 0 0) := by
  obtain ⟨s, h1, h2⟩ := AR.exists_started (i := AR.sampleInit m 1 1) (d := AR.sampleConfig) rfl rfl rfl rfl rfl
  obtain ⟨s1, s2, e1, e2, h⟩ := C113_back (x := 3) (y := 1) (z := 4) (x' := -3) (y' := 1) (z' := -4) h1
    (hm.imp_right (Or.imp_right fun h => ⟨h, rfl⟩)) rfl rfl h2 (by rw [quat_norm, normSq_mkQ]; norm_num) (by
      rw [AR.sample_rate, AR.sample_rate, mkQ_neg]
      norm_num)
  exact ⟨s, s1, s2, h1, e1, e2, h⟩

end
end Verif
