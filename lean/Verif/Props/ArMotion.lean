import Verif.Props.RoundedArTaylor
import Mathlib.Analysis.InnerProductSpace.Calculus
import Mathlib.Analysis.Calculus.MeanValue
import Mathlib.Analysis.Real.Pi.Bounds

/-
The AR filter against a continuous motion (C115): how far the attitude is from the solution of `q' = q ω / 2` when the
filter is given samples of `ω`, for the closed form and the Taylor series, exactly and in binary32; and that Euler's
method does not follow it.
-/

set_option linter.unusedSectionVars false

namespace Verif
open Scalar Finset

/-- A motion: the unit quaternion `q` turns with the rate `ω` (in its own frame), which has the Lipschitz constant `L`. -/
structure Motion (q ω : ℝ → Quaternion ℝ) (L : ℝ) : Prop where
  unit : ‖q 0‖ = 1
  pure : ∀ t, (ω t).re = 0
  deriv : ∀ t, HasDerivAt q ((1 / 2 : ℝ) • (q t * ω t)) t
  lip : ∀ s t, ‖ω s - ω t‖ ≤ L * |s - t|

namespace Motion
variable {q ω : ℝ → Quaternion ℝ} {L : ℝ}

theorem norm (h : Motion q ω L) (t : ℝ) : ‖q t‖ = 1 := by
  have hd : ∀ t, HasDerivAt (fun t => ‖q t‖ ^ 2) 0 t := by
    intro t
    have := (h.deriv t).norm_sq
    have e : 2 * inner ℝ (q t) ((1 / 2 : ℝ) • (q t * ω t)) = 0 := by
      rw [real_inner_smul_right, Quaternion.inner_def]
      simp only [Quaternion.re_mul, Quaternion.imI_mul, Quaternion.imJ_mul, Quaternion.imK_mul, Quaternion.re_star,
        Quaternion.imI_star, Quaternion.imJ_star, Quaternion.imK_star, h.pure t]
      ring
    rwa [e] at this
  have hc := is_const_of_deriv_eq_zero (fun t => (hd t).differentiableAt) (fun t => (hd t).deriv) t 0
  simp only [h.unit] at hc
  nlinarith [norm_nonneg (q t)]

theorem lip_nonneg (h : Motion q ω L) : 0 ≤ L := by
  have := (norm_nonneg _).trans (h.lip 1 0)
  simpa using this

/-- The motion backwards from the time `a`. -/
theorem back (h : Motion q ω L) (a : ℝ) : Motion (fun s => q (a - s)) (fun s => -ω (a - s)) L where
  unit := h.norm _
  pure t := by simp [h.pure]
  deriv t := by
    have h1 : HasDerivAt (fun s : ℝ => a - s) (-1) t := by simpa using (hasDerivAt_id t).const_sub a
    have := HasDerivAt.scomp t (h.deriv (a - t)) h1
    rw [show (1 / 2 : ℝ) • (q (a - t) * -ω (a - t)) = (-1 : ℝ) • (1 / 2 : ℝ) • (q (a - t) * ω (a - t)) by
      rw [mul_neg, smul_neg, neg_one_smul]]
    exact this
  lip s t := by
    have := h.lip (a - t) (a - s)
    rw [show -ω (a - s) - -ω (a - t) = ω (a - t) - ω (a - s) by abel]
    refine this.trans (le_of_eq ?_)
    congr 2
    ring

/-- The motion from the time `a` on. -/
theorem shift (h : Motion q ω L) (a : ℝ) : Motion (fun s => q (a + s)) (fun s => ω (a + s)) L where
  unit := h.norm _
  pure t := h.pure _
  deriv t := by
    have h1 : HasDerivAt (fun s : ℝ => a + s) 1 t := by simpa using (hasDerivAt_id t).const_add a
    have := HasDerivAt.scomp t (h.deriv (a + t)) h1
    rw [one_smul] at this
    exact this
  lip s t := by
    have := h.lip (a + s) (a + t)
    rwa [add_sub_add_left_eq_sub] at this

/-- Turning with the rate at the beginning. -/
theorem near (h : Motion q ω L) {τ : ℝ} (hτ : 0 ≤ τ) : ‖q τ - q 0 * NormedSpace.exp ((τ / 2) • ω 0)‖ ≤ L * τ ^ 2 / 4 := by
  let _ : NormedAlgebra ℚ (Quaternion ℝ) := .restrictScalars ℚ ℝ (Quaternion ℝ)
  let v : Quaternion ℝ := (-1 / 2 : ℝ) • ω 0
  have hv : v.re = 0 := by simp [v, h.pure 0]
  have hd : ∀ s, HasDerivAt (fun s : ℝ => q s * NormedSpace.exp (s • v) - q 0)
      ((1 / 2 : ℝ) • (q s * (ω s - ω 0) * NormedSpace.exp (s • v))) s := by
    intro s
    have h1 := ((h.deriv s).mul (hasDerivAt_exp_smul_const' (𝕂 := ℝ) v s)).sub_const (q 0)
    refine h1.congr_deriv ?_
    rw [show v = (-1 / 2 : ℝ) • ω 0 from rfl]
    rw [smul_mul_assoc, smul_mul_assoc, mul_smul_comm, ← mul_assoc, mul_sub, sub_mul, smul_sub, neg_div, neg_smul,
      sub_eq_add_neg, neg_smul]
  have key := image_norm_le_of_norm_deriv_right_le_deriv_boundary (a := 0) (b := τ)
    (f := fun s : ℝ => q s * NormedSpace.exp (s • v) - q 0) (B := fun s => L * s ^ 2 / 4) (B' := fun s => L * s / 2)
    (fun s _ => (hd s).continuousAt.continuousWithinAt) (fun s _ => (hd s).hasDerivWithinAt) (by simp)
    (fun s => by
      have := ((hasDerivAt_pow 2 s).const_mul L).div_const 4
      refine this.congr_deriv ?_
      push_cast
      ring)
    (fun s hs => by
      rw [norm_smul, norm_mul, norm_mul, h.norm, norm_exp_pure (by simp [hv]), one_mul, mul_one, Real.norm_eq_abs]
      have := h.lip s 0
      rw [sub_zero, abs_of_nonneg hs.1] at this
      rw [abs_of_pos (by norm_num)]
      linarith) ⟨hτ, le_rfl⟩
  have e : (τ / 2) • ω 0 = -(τ • v) := by
    simp only [v]
    rw [smul_smul, ← neg_smul]
    congr 1
    ring
  have e2 : q τ - q 0 * NormedSpace.exp ((τ / 2) • ω 0) =
      (q τ * NormedSpace.exp (τ • v) - q 0) * NormedSpace.exp (-(τ • v)) := by
    rw [e, sub_mul, mul_assoc, ← NormedSpace.exp_add_of_commute (Commute.neg_right (Commute.refl _)), add_neg_cancel,
      NormedSpace.exp_zero, mul_one]
  rw [e2, norm_mul, norm_exp_pure (by simp [hv]), mul_one]
  exact key

/-- Turning with the rate at any time of the step. -/
theorem step (h : Motion q ω L) {t τ u : ℝ} (hu : u ∈ Set.Icc t (t + τ)) :
    ‖q (t + τ) - q t * NormedSpace.exp ((τ / 2) • ω u)‖ ≤ L * τ ^ 2 / 4 := by
  let _ : NormedAlgebra ℚ (Quaternion ℝ) := .restrictScalars ℚ ℝ (Quaternion ℝ)
  have h1 := (h.shift u).near (τ := t + τ - u) (by linarith [hu.2])
  have h2 := (h.back u).near (τ := u - t) (by linarith [hu.1])
  simp only [add_zero, sub_zero, show u + (t + τ - u) = t + τ by ring, show u - (u - t) = t by ring] at h1 h2
  have e : NormedSpace.exp (((u - t) / 2) • -ω u) * NormedSpace.exp ((τ / 2) • ω u) =
      NormedSpace.exp (((t + τ - u) / 2) • ω u) := by
    rw [← NormedSpace.exp_add_of_commute ((((Commute.refl (ω u)).neg_left).smul_left _).smul_right _), smul_neg, ← neg_smul,
      ← add_smul]
    congr 2
    ring
  have t1 := norm_sub_le_norm_sub_add_norm_sub (q (t + τ)) (q u * NormedSpace.exp (((t + τ - u) / 2) • ω u))
    (q t * NormedSpace.exp ((τ / 2) • ω u))
  have e3 : q u * NormedSpace.exp (((t + τ - u) / 2) • ω u) - q t * NormedSpace.exp ((τ / 2) • ω u) =
      -((q t - q u * NormedSpace.exp (((u - t) / 2) • -ω u)) * NormedSpace.exp ((τ / 2) • ω u)) := by
    rw [sub_mul, mul_assoc, e, neg_sub]
  rw [e3, norm_neg, norm_mul, norm_exp_pure (by simp [h.pure]), mul_one] at t1
  have hL := h.lip_nonneg
  have : L * (t + τ - u) ^ 2 / 4 + L * (u - t) ^ 2 / 4 ≤ L * τ ^ 2 / 4 := by
    have e4 : L * τ ^ 2 / 4 - (L * (t + τ - u) ^ 2 / 4 + L * (u - t) ^ 2 / 4) = L * ((u - t) * (t + τ - u)) / 2 := by ring
    have : 0 ≤ L * ((u - t) * (t + τ - u)) / 2 := by
      have a1 : 0 ≤ u - t := by linarith [hu.1]
      have a2 : 0 ≤ t + τ - u := by linarith [hu.2]
      positivity
    linarith
  linarith

/-- Turning with a rate that is measured with an error of at most `η` at some time of the step. -/
theorem measured (h : Motion q ω L) {t τ η : ℝ} (hτ : 0 ≤ τ) {r A : Quaternion ℝ} (hr : r.re = 0)
    (hm : ∃ u ∈ Set.Icc t (t + τ), ‖r - ω u‖ ≤ η) :
    ‖A * NormedSpace.exp ((τ / 2) • r) - q (t + τ)‖ ≤ ‖A - q t‖ + (L * τ ^ 2 / 4 + η * τ / 2) := by
  obtain ⟨u, hu, hη⟩ := hm
  have h1 := h.step hu
  rw [norm_sub_rev] at h1
  have h2 : ‖NormedSpace.exp ((τ / 2) • r) - NormedSpace.exp ((τ / 2) • ω u)‖ ≤ η * τ / 2 := by
    refine (exp_dist (by simp [hr]) (by simp [h.pure])).trans ?_
    rw [← smul_sub, norm_smul, Real.norm_eq_abs, abs_of_nonneg (by positivity)]
    have := mul_le_mul_of_nonneg_left hη (show 0 ≤ τ / 2 by positivity)
    linarith
  have t1 := norm_sub_le_norm_sub_add_norm_sub (A * NormedSpace.exp ((τ / 2) • r)) (q t * NormedSpace.exp ((τ / 2) • r))
    (q (t + τ))
  have t2 := norm_sub_le_norm_sub_add_norm_sub (q t * NormedSpace.exp ((τ / 2) • r)) (q t * NormedSpace.exp ((τ / 2) • ω u))
    (q (t + τ))
  rw [← sub_mul, norm_mul, norm_exp_pure (by simp [hr]), mul_one] at t1
  rw [← mul_sub, norm_mul, h.norm, one_mul] at t2
  linarith

end Motion

/-! ### The filter in exact arithmetic -/

section
open AR
variable {q ω : ℝ → Quaternion ℝ} {L : ℝ} {s s' : AR XR} {A : Quaternion ℝ} {d : GyrometerConfig ℝ} {i : ARInit XR} {τ η : ℝ}

/-- A sample of three numbers. -/
def fin3 (x : ℝ × ℝ × ℝ) : XR × XR × XR := (.fin x.1, .fin x.2.1, .fin x.2.2)

/-- The rates that the filter reads are those of the motion at some time of their steps, with an error of at most `η`. -/
def Follows (ω : ℝ → Quaternion ℝ) (τ η t : ℝ) (r : List (Quaternion ℝ)) : Prop :=
  ∀ k, (hk : k < r.length) → ∃ u ∈ Set.Icc (t + k * τ) (t + (k + 1) * τ), ‖r[k] - ω u‖ ≤ η

theorem Follows.head {t : ℝ} {x : Quaternion ℝ} {l : List (Quaternion ℝ)} (h : Follows ω τ η t (x :: l)) :
    ∃ u ∈ Set.Icc t (t + τ), ‖x - ω u‖ ≤ η := by
  have := h 0 (by simp)
  simpa using this

theorem Follows.tail {t : ℝ} {x : Quaternion ℝ} {l : List (Quaternion ℝ)} (h : Follows ω τ η t (x :: l)) :
    Follows ω τ η (t + τ) l := by
  intro k hk
  obtain ⟨u, hu, hr⟩ := h (k + 1) (by simpa using hk)
  refine ⟨u, ?_, by simpa using hr⟩
  push_cast at hu
  rw [show t + τ + k * τ = t + (k + 1) * τ by ring, show t + τ + (k + 1) * τ = t + (k + 1 + 1) * τ by ring]
  exact hu

/-- A filter each of whose updates is within `κ` of the rotation that it reads. -/
theorem AR.motion_feed (h : Motion q ω L) (hτ : 0 ≤ τ) {κ : ℝ} {P : ℝ × ℝ × ℝ → Prop}
    (step : ∀ {s : AR XR} {A : Quaternion ℝ} {x : ℝ × ℝ × ℝ}, Started i s → Shows s A → ‖A‖ = 1 → P x →
      ∃ s' B, update (.fin x.1) (.fin x.2.1) (.fin x.2.2) s = (.ok (), s') ∧ Shows s' B ∧ ‖B‖ = 1 ∧
        ‖B - A * NormedSpace.exp ((τ / 2) • d.rate x.1 x.2.1 x.2.2)‖ ≤ κ)
    (hs : Started i s) (hA : Shows s A) (hu : ‖A‖ = 1) {t : ℝ} (l : List (ℝ × ℝ × ℝ)) (hP : ∀ x ∈ l, P x)
    (hl : Follows ω τ η t (l.map fun x => d.rate x.1 x.2.1 x.2.2)) :
    ∃ s' B, feed (l.map fin3) s = (.ok (), s') ∧ Shows s' B ∧ ‖B‖ = 1 ∧
      ‖B - q (t + l.length * τ)‖ ≤ ‖A - q t‖ + l.length * (L * τ ^ 2 / 4 + η * τ / 2 + κ) := by
  induction l generalizing s A t with
  | nil => exact ⟨s, A, rfl, hA, hu, by simp⟩
  | cons x l ih =>
    rw [List.map_cons] at hl
    obtain ⟨s1, B, e1, k1, k2, k3⟩ := step hs hA hu (hP x (by simp))
    obtain ⟨s2, C, e2, k4, k5, k6⟩ := ih (hs.next e1) k1 k2 (fun y hy => hP y (by simp [hy])) hl.tail
    refine ⟨s2, C, ?_, k4, k5, ?_⟩
    · rw [List.map_cons]
      unfold feed
      rw [show (fin3 x).1 = .fin x.1 from rfl, show (fin3 x).2.1 = .fin x.2.1 from rfl,
        show (fin3 x).2.2 = .fin x.2.2 from rfl, Op.bind_ok e1]
      exact e2
    · have m := h.measured (A := A) hτ (r := d.rate x.1 x.2.1 x.2.2) rfl hl.head
      have t1 := norm_sub_le_norm_sub_add_norm_sub B (A * NormedSpace.exp ((τ / 2) • d.rate x.1 x.2.1 x.2.2)) (q (t + τ))
      rw [List.length_cons]
      push_cast
      rw [show t + ((l.length : ℝ) + 1) * τ = t + τ + l.length * τ by ring]
      refine k6.trans ?_
      linarith

/-- Below the threshold. -/
theorem AR.motion_still (hs : Started i s) (hc : i.config = d.fin) (hA : Shows s A) (hu : ‖A‖ = 1) (hτ : 0 ≤ τ) {x y z : ℝ}
    (hm : ‖d.rate x y z‖ ≤ epsilon ℝ) :
    ∃ s' B, update (.fin x) (.fin y) (.fin z) s = (.ok (), s') ∧ Shows s' B ∧ ‖B‖ = 1 ∧
      ‖B - A * NormedSpace.exp ((τ / 2) • d.rate x y z)‖ ≤ epsilon ℝ * τ / 2 := by
  obtain ⟨⟨f, h⟩, -, -, -, h4⟩ := hs.ready
  obtain ⟨s', e, h'⟩ := h.stays hA (h4.trans (by rw [hc])) x y z hm
  refine ⟨s', A, e, h', hu, ?_⟩
  have e1 : A - A * NormedSpace.exp ((τ / 2) • d.rate x y z) =
      A * (NormedSpace.exp 0 - NormedSpace.exp ((τ / 2) • d.rate x y z)) := by
    rw [NormedSpace.exp_zero, mul_sub, mul_one]
  rw [e1, norm_mul, hu, one_mul]
  refine (exp_dist rfl (show ((τ / 2) • d.rate x y z).re = 0 by
    have : (d.rate x y z).re = 0 := rfl
    simp [this])).trans ?_
  rw [zero_sub, norm_neg, norm_smul, Real.norm_eq_abs, abs_of_nonneg (by positivity)]
  have := mul_le_mul_of_nonneg_left hm (show 0 ≤ τ / 2 by positivity)
  linarith

/-- C115: the closed form follows a motion.  The true attitude turns with a rate of Lipschitz constant `L`; each sample
is read as the rate at some time of its step, with an error of at most `η`.  Every update succeeds, the attitude is a unit
quaternion, and the deviation grows by at most `L τ² / 4 + η τ / 2 + EPSILON τ / 2` per sample. -/
theorem C115_closed (h : Motion q ω L) (hs : Started i s) (hm : i.method = .ClosedForm) (hc : i.config = d.fin)
    (ht : i.ts = .fin τ) (hτ : 0 ≤ τ) (hA : Shows s A) (hu : ‖A‖ = 1) {t : ℝ} (l : List (ℝ × ℝ × ℝ))
    (hl : ∀ k, (hk : k < l.length) → ∃ u ∈ Set.Icc (t + k * τ) (t + (k + 1) * τ),
      ‖d.rate l[k].1 l[k].2.1 l[k].2.2 - ω u‖ ≤ η) :
    ∃ s' B, feed (l.map fin3) s = (.ok (), s') ∧ Shows s' B ∧ ‖B‖ = 1 ∧
      ‖B - q (t + l.length * τ)‖ ≤ ‖A - q t‖ + l.length * (L * τ ^ 2 / 4 + η * τ / 2 + epsilon ℝ * τ / 2) := by
  refine motion_feed (d := d) (P := fun _ => True) h hτ ?_ hs hA hu l (fun _ _ => trivial) ?_
  · intro s A x hs hA hu _
    by_cases hmov : epsilon ℝ < ‖d.rate x.1 x.2.1 x.2.2‖
    · obtain ⟨s', e, h'⟩ := C49_closed hs hm hc ht hA hu hmov
      refine ⟨s', _, e, h', by rw [norm_mul, hu, norm_rotation rfl, one_mul], ?_⟩
      rw [sub_self, norm_zero]
      have := Linalg.eps_pos (K := ℝ)
      positivity
    · exact motion_still hs hc hA hu hτ (not_lt.mp hmov)
  · intro k hk
    have := hl k (by simpa using hk)
    simpa using this

/-- C115: so with exact samples, of a motion of any duration `D`, the deviation can be made as small as `EPSILON D / 2`
by sampling often enough. -/
theorem C115_limit (h : Motion q ω L) {D δ : ℝ} (hD : 0 < D) (hδ : 0 < δ) : ∃ N₀ : ℕ, ∀ N ≥ N₀, ∀ {i : ARInit XR} {s : AR XR},
    Started i s → i.method = .ClosedForm → i.config = d.fin → i.ts = .fin (D / N) → Shows s (q 0) →
    ∀ l : List (ℝ × ℝ × ℝ), l.length = N →
    (∀ k, (hk : k < l.length) → ∃ u ∈ Set.Icc (k * (D / N)) ((k + 1) * (D / N)), d.rate l[k].1 l[k].2.1 l[k].2.2 = ω u) →
    ∃ s' B, feed (l.map fin3) s = (.ok (), s') ∧ Shows s' B ∧ ‖B - q D‖ ≤ epsilon ℝ * D / 2 + δ := by
  obtain ⟨N₀, hN₀⟩ := exists_nat_gt (L * D ^ 2 / 4 / δ)
  have hL := h.lip_nonneg
  refine ⟨max N₀ 1, fun N hN i s hs hm hc ht hA l hl hr => ?_⟩
  have h1 : (1 : ℝ) ≤ N := by exact_mod_cast (le_max_right _ _).trans hN
  have h2 : (N₀ : ℝ) ≤ N := by exact_mod_cast (le_max_left _ _).trans hN
  have h3 : L * D ^ 2 / 4 / δ < N := lt_of_lt_of_le hN₀ h2
  rw [div_lt_iff₀ hδ] at h3
  obtain ⟨s', B, e, k1, -, k2⟩ := C115_closed (t := 0) (η := 0) h hs hm hc ht (by positivity) hA h.unit l (by
    intro k hk
    obtain ⟨u, hu, e⟩ := hr k hk
    refine ⟨u, by simpa using hu, ?_⟩
    rw [e, sub_self, norm_zero])
  refine ⟨s', B, e, k1, ?_⟩
  rw [hl, sub_self, norm_zero, zero_add, zero_add, show (N : ℝ) * (D / N) = D by field_simp] at k2
  refine k2.trans (le_of_eq_of_le (b := L * D ^ 2 / 4 / N + epsilon ℝ * D / 2) ?_ ?_)
  · field_simp
    ring
  · have : L * D ^ 2 / 4 / N ≤ δ := by
      rw [div_le_iff₀ (by linarith)]
      linarith
    linarith

/-- How far one step of the series is from the rotation. -/
theorem AR.series_turn_unit {N : ℕ} (h1 : 1 ≤ N) (hN : N ≤ 20) {v : Quaternion ℝ} (hv : v.re = 0) (hv1 : ‖v‖ ≤ 1 / 2)
    (hA : ‖A‖ = 1) :
    1 / 2 ≤ ‖seriesStep N v A‖ ∧ ‖‖seriesStep N v A‖⁻¹ • seriesStep N v A - A * NormedSpace.exp v‖ ≤
      (if N = 1 then 0 else 288 / 100 * ‖v‖ ^ 2) + ‖v‖ ^ 3 / 3 := by
  have hv1' := one_le_norm hv
  have hA0 : A ≠ 0 := norm_pos_iff.mp (by rw [hA]; norm_num)
  have hE : A * (1 + v) ≠ 0 := mul_ne_zero hA0 (one_add_ne hv)
  have hEn : ‖A * (1 + v)‖ = ‖1 + v‖ := by rw [norm_mul, hA, one_mul]
  have hf := series_first (A := A) h1 hN hv (by linarith)
  have hv2 : ‖v‖ ^ 2 ≤ (1 / 2) ^ 2 := pow_le_pow_left₀ (norm_nonneg _) hv1 2
  rw [hA, mul_one] at hf
  have hS : 1 / 2 ≤ ‖seriesStep N v A‖ := by
    have := (abs_le.mp ((abs_norm_sub_norm_le _ _).trans hf)).1
    rw [hEn] at this
    linarith
  refine ⟨hS, ?_⟩
  have e5 : ‖A * (1 + v)‖⁻¹ • (A * (1 + v)) = A * eulerUnit v := by
    unfold eulerUnit
    rw [hEn, mul_smul_comm]
  have d1 : ‖‖seriesStep N v A‖⁻¹ • seriesStep N v A - A * eulerUnit v‖ ≤ if N = 1 then 0 else 288 / 100 * ‖v‖ ^ 2 := by
    rw [← e5]
    by_cases h : N = 1
    · subst h
      rw [series_one v A hv]
      simp
    · rw [if_neg h]
      refine (normalised_dist (norm_pos_iff.mp (by linarith)) hE).trans ?_
      rw [div_le_iff₀ (by rw [hEn]; linarith), hEn]
      nlinarith [sq_nonneg ‖v‖]
  have d3 : ‖A * eulerUnit v - A * NormedSpace.exp v‖ ≤ ‖v‖ ^ 3 / 3 := by
    rw [← mul_sub, norm_mul, hA, one_mul]
    exact eulerUnit_exp hv
  have t1 := norm_sub_le_norm_sub_add_norm_sub (‖seriesStep N v A‖⁻¹ • seriesStep N v A) (A * eulerUnit v)
    (A * NormedSpace.exp v)
  linarith

/-- C115: the Taylor series of order 1 to 20 follows a motion too, when half of each turn that it reads is at most
`h ≤ 1/2`: the deviation grows by at most `h³ / 3`, and for order 2 and more also by `2.88 h²`, on top of the terms of the
closed form. -/
theorem C115_taylor (h : Motion q ω L) (hs : Started i s) (hm : i.method = .TaylorSeries) (ho1 : 1 ≤ i.order)
    (ho : i.order ≤ 20) (hc : i.config = d.fin)
    (ht : i.ts = .fin τ) (hτ : 0 ≤ τ) (hA : Shows s A) (hu : ‖A‖ = 1) {t b : ℝ} (hb : b ≤ 1 / 2) (l : List (ℝ × ℝ × ℝ))
    (hlb : ∀ x ∈ l, ‖(τ / 2) • d.rate x.1 x.2.1 x.2.2‖ ≤ b)
    (hl : ∀ k, (hk : k < l.length) → ∃ u ∈ Set.Icc (t + k * τ) (t + (k + 1) * τ),
      ‖d.rate l[k].1 l[k].2.1 l[k].2.2 - ω u‖ ≤ η) :
    ∃ s' B, feed (l.map fin3) s = (.ok (), s') ∧ Shows s' B ∧ ‖B‖ = 1 ∧
      ‖B - q (t + l.length * τ)‖ ≤ ‖A - q t‖ + l.length * (L * τ ^ 2 / 4 + η * τ / 2 +
        (epsilon ℝ * τ / 2 + (if i.order = 1 then 0 else 288 / 100 * b ^ 2) + b ^ 3 / 3)) := by
  refine motion_feed (d := d) (P := fun x => ‖(τ / 2) • d.rate x.1 x.2.1 x.2.2‖ ≤ b) h hτ ?_ hs hA hu l hlb ?_
  · intro s A x hs hA hu hx
    have hb0 : 0 ≤ b := (norm_nonneg _).trans hx
    have hif : 0 ≤ if i.order = 1 then 0 else 288 / 100 * b ^ 2 := by split <;> positivity
    have hε := Linalg.eps_pos (K := ℝ)
    by_cases hmov : epsilon ℝ < ‖d.rate x.1 x.2.1 x.2.2‖
    · obtain ⟨p, q', r, hr⟩ : ∃ p q r, d.rate x.1 x.2.1 x.2.2 = mkQ 0 p q r := ⟨_, _, _, rfl⟩
      obtain ⟨s', B, e, h', hB, -⟩ := C51_taylor (T := fun k l => _) hs hm ho hc ht hA hmov hr rfl (fun k l => rfl) rfl
      rw [series_matrix rfl (fun k l => rfl) rfl, ← hr] at hB
      have hre : ((τ / 2) • d.rate x.1 x.2.1 x.2.2).re = 0 := by
        have : (d.rate x.1 x.2.1 x.2.2).re = 0 := rfl
        simp [this]
      obtain ⟨k1, k2⟩ := series_turn_unit ho1 ho hre (by linarith) hu
      have hB' := hB (by have : epsilon ℝ = 1 / 10000 := by norm_num [epsilon]
                         linarith)
      refine ⟨s', B, e, h', ?_, ?_⟩
      · rw [hB', norm_smul, norm_inv, norm_norm]
        exact inv_mul_cancel₀ (by linarith)
      · rw [hB']
        refine k2.trans ?_
        generalize (τ / 2) • d.rate x.1 x.2.1 x.2.2 = v at *
        have p2 : ‖v‖ ^ 2 ≤ b ^ 2 := pow_le_pow_left₀ (norm_nonneg _) hx 2
        have p3 : ‖v‖ ^ 3 ≤ b ^ 3 := pow_le_pow_left₀ (norm_nonneg _) hx 3
        have p4 : 0 ≤ epsilon ℝ * τ / 2 := by positivity
        split
        · linarith
        · linarith
    · obtain ⟨s', B, e, k1, k2, k3⟩ := motion_still hs hc hA hu hτ (not_lt.mp hmov)
      refine ⟨s', B, e, k1, k2, k3.trans ?_⟩
      have : 0 ≤ b ^ 3 / 3 := by positivity
      linarith
  · intro k hk
    have := hl k (by simpa using hk)
    simpa using this

/-! ### Euler's method -/

/-- C115: Euler's method turns about the axes of the fixed frame instead: with `N` equal samples the attitude is within
`N h³ / 3` of `exp (N τ ω / 2) A`, where `h` is half of the angle of one step. -/
theorem C115_left (hs : Started i s) (hm : i.method = .Euler) (hc : i.config = d.fin) (ht : i.ts = .fin τ) (hA : Shows s A)
    (hu : ‖A‖ = 1) {x y z : ℝ} (hmov : epsilon ℝ < ‖d.rate x y z‖) (N : ℕ) :
    ∃ s' B, feed (List.replicate N (.fin x, .fin y, .fin z)) s = (.ok (), s') ∧ Shows s' B ∧ ‖B‖ = 1 ∧
      ‖B - NormedSpace.exp ((N : ℝ) • (τ / 2) • d.rate x y z) * A‖ ≤ N * (‖(τ / 2) • d.rate x y z‖ ^ 3 / 3) := by
  let _ : NormedAlgebra ℚ (Quaternion ℝ) := .restrictScalars ℚ ℝ (Quaternion ℝ)
  have hre : ((τ / 2) • d.rate x y z).re = 0 := by
    have : (d.rate x y z).re = 0 := rfl
    simp [this]
  induction N generalizing s A with
  | zero => exact ⟨s, A, rfl, hA, hu, by simp⟩
  | succ N ih =>
    obtain ⟨s1, e1, k1⟩ := C50_euler hs hm hc ht hA hu hmov
    have e : ‖A + (τ / 2) • (d.rate x y z * A)‖⁻¹ • (A + (τ / 2) • (d.rate x y z * A)) =
        eulerUnit ((τ / 2) • d.rate x y z) * A := by
      unfold eulerUnit
      rw [← smul_mul_assoc, ← one_add_mul, norm_mul, hu, mul_one, smul_mul_assoc]
    rw [e] at k1
    obtain ⟨s2, B, e2, k2, k3, k4⟩ := ih (hs.next e1) k1 (by rw [norm_mul, norm_eulerUnit hre, hu, one_mul])
    refine ⟨s2, B, ?_, k2, k3, ?_⟩
    · rw [List.replicate_succ]
      unfold feed
      rw [Op.bind_ok e1]
      exact e2
    · generalize (τ / 2) • d.rate x y z = v at *
      have hx : NormedSpace.exp ((N : ℝ) • v) * NormedSpace.exp v = NormedSpace.exp (((N + 1 : ℕ) : ℝ) • v) := by
        rw [← NormedSpace.exp_add_of_commute ((Commute.refl v).smul_left _)]
        congr 1
        push_cast
        rw [add_smul, one_smul]
      rw [← hx]
      have t1 := norm_sub_le_norm_sub_add_norm_sub B (NormedSpace.exp ((N : ℝ) • v) * (eulerUnit v * A))
        (NormedSpace.exp ((N : ℝ) • v) * NormedSpace.exp v * A)
      rw [mul_assoc (NormedSpace.exp ((N : ℝ) • v)) (NormedSpace.exp v) A, ← mul_sub, ← sub_mul, norm_mul, norm_mul,
        norm_exp_pure (by simp [hre]), hu, one_mul, mul_one] at t1
      have := eulerUnit_exp hre
      rw [mul_assoc]
      push_cast
      linarith

/-- A motion with a constant rate. -/
theorem Motion.const {A v : Quaternion ℝ} (hA : ‖A‖ = 1) (hv : v.re = 0) :
    Motion (fun t => A * NormedSpace.exp (t • ((1 / 2 : ℝ) • v))) (fun _ => v) 0 where
  unit := by simp [hA]
  pure _ := hv
  deriv t := by
    have := HasDerivAt.const_mul A (hasDerivAt_exp_smul_const (𝕂 := ℝ) ((1 / 2 : ℝ) • v) t)
    rw [mul_smul_comm, mul_smul_comm, ← mul_assoc] at this
    exact this
  lip s t := by simp

/-- C115: so Euler's method does not follow a motion, however often it is sampled: for every number `N ≥ 2` of samples
there is a filter with Euler's method that starts at the true attitude `q 0`, reads the true constant rate exactly, and
ends at least 1 away from both `q` and `-q` after half a turn. -/
theorem C115_euler : ∃ (q : ℝ → Quaternion ℝ) (ω : Quaternion ℝ), Motion q (fun _ => ω) 0 ∧ ∀ N : ℕ, 2 ≤ N →
    ∃ (i : ARInit XR) (s s' : AR XR) (x y z : ℝ) (B : Quaternion ℝ), Started i s ∧ i.method = .Euler ∧
      i.ts = .fin (Real.pi / N) ∧ i.config = AR.sampleConfig.fin ∧ AR.sampleConfig.rate x y z = ω ∧ Shows s (q 0) ∧
      feed (List.replicate N (.fin x, .fin y, .fin z)) s = (.ok (), s') ∧ Shows s' B ∧
      1 ≤ ‖B - q Real.pi‖ ∧ 1 ≤ ‖B + q Real.pi‖ := by
  obtain ⟨c, hc⟩ : ∃ c : ℝ, c = (√2)⁻¹ := ⟨_, rfl⟩
  have hc2 : c * c = 1 / 2 := by
    rw [hc, ← mul_inv, Real.mul_self_sqrt (by norm_num)]
    norm_num
  have hc0 : 0 < c := by rw [hc]; positivity
  obtain ⟨A, hA⟩ : ∃ A, A = mkQ c 0 0 c := ⟨_, rfl⟩
  have hAn : ‖A‖ = 1 := by
    rw [hA, norm_mkQ, Real.sqrt_eq_one]
    linarith
  have hexp : NormedSpace.exp ((Real.pi / 2) • mkQ (0 : ℝ) 1 0 0) = mkQ (0 : ℝ) 1 0 0 := by
    have h := rotation_eq (ω := mkQ (0 : ℝ) 1 0 0) (τ := Real.pi) rfl (by rw [norm_mkQ]; norm_num)
    rw [norm_mkQ] at h
    norm_num at h
    exact h.symm
  refine ⟨fun t => A * NormedSpace.exp (t • ((1 / 2 : ℝ) • mkQ (0 : ℝ) 1 0 0)), mkQ (0 : ℝ) 1 0 0, .const hAn rfl, ?_⟩
  · intro N hN
    obtain ⟨s, h1, h2⟩ := AR.exists_started (w := c) (x := 0) (y := 0) (z := c)
      (i := { AR.sampleInit .Euler 1 (Real.pi / N) with qw := .fin c, qx := .fin 0, qz := .fin c })
      (d := AR.sampleConfig) rfl rfl rfl rfl rfl
    rw [← hA] at h2
    have hrate : AR.sampleConfig.rate 1 1 0 = mkQ (0 : ℝ) 1 0 0 := by
      rw [AR.sample_rate]
      norm_num
    have hone : ‖mkQ (0 : ℝ) 1 0 0‖ = 1 := by rw [norm_mkQ]; norm_num
    obtain ⟨s', B, e, k1, -, k2⟩ := C115_left (x := 1) (y := 1) (z := 0) h1 rfl rfl rfl h2 hAn (by
      rw [hrate, hone]
      exact eps_lt_one) N
    rw [hrate, smul_smul] at k2
    have hN' : (2 : ℝ) ≤ N := by exact_mod_cast hN
    rw [show (N : ℝ) * (Real.pi / N / 2) = Real.pi / 2 by field_simp, hexp, norm_smul, hone, mul_one, Real.norm_eq_abs,
      abs_of_pos (by have := Real.pi_pos; positivity)] at k2
    have hsmall : (N : ℝ) * ((Real.pi / N / 2) ^ 3 / 3) ≤ 2 / 5 := by
      have hpi := Real.pi_lt_d2
      have hp0 := Real.pi_pos
      have hp3 : Real.pi ^ 3 ≤ (315 / 100) ^ 3 := pow_le_pow_left₀ hp0.le (by linarith) 3
      have e : (N : ℝ) * ((Real.pi / N / 2) ^ 3 / 3) = Real.pi ^ 3 / (24 * N ^ 2) := by
        field_simp
        ring
      rw [e, div_le_iff₀ (by positivity)]
      have : (4 : ℝ) ≤ N ^ 2 := by nlinarith
      linarith
    have hq : A * NormedSpace.exp (Real.pi • ((1 / 2 : ℝ) • mkQ (0 : ℝ) 1 0 0)) = A * mkQ (0 : ℝ) 1 0 0 := by
      rw [smul_smul, show Real.pi * (1 / 2) = Real.pi / 2 by ring, hexp]
    have hs2 : 7 / 5 ≤ √((2 : ℝ)) := Real.le_sqrt_of_sq_le (by norm_num)
    have hcom : mkQ (0 : ℝ) 1 0 0 * A = mkQ 0 c (-c) 0 ∧ A * mkQ (0 : ℝ) 1 0 0 = mkQ 0 c c 0 := by
      rw [hA]
      constructor <;> ext <;> simp [Quaternion.re_mul, Quaternion.imI_mul, Quaternion.imJ_mul, Quaternion.imK_mul]
    have hd : ‖mkQ (0 : ℝ) 1 0 0 * A - A * mkQ (0 : ℝ) 1 0 0‖ = √2 ∧ ‖mkQ (0 : ℝ) 1 0 0 * A + A * mkQ (0 : ℝ) 1 0 0‖ = √2 := by
      rw [hcom.1, hcom.2]
      constructor
      · rw [show mkQ 0 c (-c) 0 - mkQ 0 c c 0 = mkQ 0 0 (-(2 * c)) 0 by ext <;> simp; ring, norm_mkQ]
        congr 1
        linear_combination 4 * hc2
      · rw [show mkQ 0 c (-c) 0 + mkQ 0 c c 0 = mkQ 0 (2 * c) 0 0 by ext <;> simp; ring, norm_mkQ]
        congr 1
        linear_combination 4 * hc2
    refine ⟨_, s, s', 1, 1, 0, B, h1, rfl, rfl, rfl, hrate, by simpa using h2, e, k1, ?_, ?_⟩
    · show 1 ≤ ‖B - A * NormedSpace.exp (Real.pi • ((1 / 2 : ℝ) • mkQ (0 : ℝ) 1 0 0))‖
      rw [hq]
      have t := norm_sub_le_norm_sub_add_norm_sub (mkQ (0 : ℝ) 1 0 0 * A) B (A * mkQ (0 : ℝ) 1 0 0)
      rw [hd.1, norm_sub_rev (mkQ (0 : ℝ) 1 0 0 * A) B] at t
      linarith
    · show 1 ≤ ‖B + A * NormedSpace.exp (Real.pi • ((1 / 2 : ℝ) • mkQ (0 : ℝ) 1 0 0))‖
      rw [hq]
      have t := norm_sub_le_norm_sub_add_norm_sub (mkQ (0 : ℝ) 1 0 0 * A) B (-(A * mkQ (0 : ℝ) 1 0 0))
      rw [sub_neg_eq_add, sub_neg_eq_add, hd.2, norm_sub_rev (mkQ (0 : ℝ) 1 0 0 * A) B] at t
      linarith

/-! ### A concrete case -/

/-- A motion about the first axis with the rate `sin t`. -/
theorem Motion.swing : Motion (fun t => NormedSpace.exp (((1 - Real.cos t) / 2) • mkQ (0 : ℝ) 1 0 0)) (fun t => Real.sin t • mkQ (0 : ℝ) 1 0 0) 1 where
  unit := by simp
  pure t := by simp
  deriv t := by
    have h1 : HasDerivAt (fun t : ℝ => (1 - Real.cos t) / 2) (Real.sin t / 2) t := by
      have := ((Real.hasDerivAt_cos t).const_sub 1).div_const 2
      rwa [neg_neg] at this
    have := HasDerivAt.scomp t (hasDerivAt_exp_smul_const (𝕂 := ℝ) (mkQ (0 : ℝ) 1 0 0) ((1 - Real.cos t) / 2)) h1
    refine this.congr_deriv ?_
    rw [mul_smul_comm, smul_smul]
    congr 1
    ring
  lip s t := by
    rw [← sub_smul, norm_smul, norm_mkQ, Real.norm_eq_abs]
    have := Real.abs_sin_sub_sin_le s t
    norm_num
    exact this

/-- The hypotheses of `C115_closed` and `C115_limit` hold for it, with any number of samples in any duration. -/
example (N : ℕ) (D : ℝ) (hN : 0 < N) (hD : 0 < D) : ∃ (i : ARInit XR) (s s' : AR XR) (B : Quaternion ℝ), Started i s ∧
    feed (((List.range N).map fun k : ℕ => (Real.sin (k * (D / N)), (1 : ℝ), (0 : ℝ))).map fin3) s = (.ok (), s') ∧ Shows s' B ∧
    ‖B - NormedSpace.exp (((1 - Real.cos D) / 2) • mkQ (0 : ℝ) 1 0 0)‖ ≤ D ^ 2 / 4 / N + D / 20000 := by
  obtain ⟨s, h1, h2⟩ := AR.exists_started (w := 1) (x := 0) (y := 0) (z := 0)
    (i := { AR.sampleInit .ClosedForm 1 (D / N) with qw := .fin 1, qx := .fin 0 })
    (d := AR.sampleConfig) rfl rfl rfl rfl rfl
  rw [mkQ_one] at h2
  have hN' : (0 : ℝ) < N := by exact_mod_cast hN
  obtain ⟨s', B, e, k1, -, k2⟩ := C115_closed (t := 0) (η := 0) Motion.swing h1 rfl rfl rfl (by positivity) h2 (by simp)
    ((List.range N).map fun k : ℕ => (Real.sin (k * (D / N)), (1 : ℝ), (0 : ℝ))) (by
      intro k hk
      refine ⟨k * (D / N), ⟨by simp, by
        have : 0 ≤ D / N := by positivity
        linarith⟩, ?_⟩
      rw [AR.sample_rate]
      simp [mkQ_smul])
  refine ⟨_, s, s', B, h1, e, k1, ?_⟩
  have he : epsilon ℝ = 1 / 10000 := by norm_num [epsilon]
  rw [List.length_map, List.length_range, zero_add, show (N : ℝ) * (D / N) = D by field_simp] at k2
  refine k2.trans (le_of_eq ?_)
  rw [he]
  simp
  field_simp
  ring

/-- The hypotheses of `C115_taylor` hold for it, with the order 1. -/
example (N : ℕ) (D : ℝ) (hD : 0 < D) (hN : D ≤ N) : ∃ (i : ARInit XR) (s s' : AR XR) (B : Quaternion ℝ), Started i s ∧
    feed (((List.range N).map fun k : ℕ => (Real.sin (k * (D / N)), (1 : ℝ), (0 : ℝ))).map fin3) s = (.ok (), s') ∧ Shows s' B ∧
    ‖B - NormedSpace.exp (((1 - Real.cos D) / 2) • mkQ (0 : ℝ) 1 0 0)‖ ≤
      D ^ 2 / 4 / N + D / 20000 + D ^ 3 / 24 / N ^ 2 := by
  obtain ⟨s, h1, h2⟩ := AR.exists_started (w := 1) (x := 0) (y := 0) (z := 0)
    (i := { AR.sampleInit .TaylorSeries 1 (D / N) with qw := .fin 1, qx := .fin 0 })
    (d := AR.sampleConfig) rfl rfl rfl rfl rfl
  rw [mkQ_one] at h2
  have hN' : (0 : ℝ) < N := hD.trans_le hN
  have hr : ∀ x : ℝ, AR.sampleConfig.rate x 1 0 = mkQ 0 x 0 0 := by
    intro x
    rw [AR.sample_rate]
    simp
  have hDN : D / N / 2 ≤ 1 / 2 := by
    have : D / N ≤ 1 := (div_le_one hN').mpr hN
    linarith
  obtain ⟨s', B, e, k1, -, k2⟩ := C115_taylor (t := 0) (η := 0) (b := D / N / 2) Motion.swing h1 rfl le_rfl
    (show (1 : ℕ) ≤ 20 by decide) rfl rfl (by positivity) h2 (by simp) hDN
    ((List.range N).map fun k : ℕ => (Real.sin (k * (D / N)), (1 : ℝ), (0 : ℝ))) (by
      intro x hx
      obtain ⟨k, -, rfl⟩ := List.mem_map.mp hx
      show ‖(D / N / 2) • AR.sampleConfig.rate (Real.sin (k * (D / N))) 1 0‖ ≤ _
      rw [hr, norm_smul, norm_mkQ, Real.norm_eq_abs, abs_of_nonneg (by positivity)]
      refine mul_le_of_le_one_right (by positivity) ?_
      rw [Real.sqrt_le_left (by norm_num)]
      have := Real.sin_sq_le_one (k * (D / N))
      linarith) (by
      intro k hk
      refine ⟨k * (D / N), ⟨by simp, by
        have : 0 ≤ D / N := by positivity
        linarith⟩, ?_⟩
      simp [hr, mkQ_smul])
  refine ⟨_, s, s', B, h1, e, k1, ?_⟩
  have he : epsilon ℝ = 1 / 10000 := by norm_num [epsilon]
  rw [List.length_map, List.length_range, zero_add, show (N : ℝ) * (D / N) = D by field_simp] at k2
  refine k2.trans (le_of_eq ?_)
  rw [he]
  simp [AR.sampleInit]
  field_simp
  ring

end

/-! ### The filter in binary32 -/

section
open AR
variable {F : Type} [Scalar F] [R : Rounded F] {q ω : ℝ → Quaternion ℝ} {L : ℝ} {s s' : AR F} {a : ARInit F} {η : ℝ}

/-- The product of the rotations that are read, against the motion. -/
theorem GyrometerConfig.path_motion {c : GyrometerConfig F} (h : Motion q ω L) {τ : ℝ} (hτ : 0 ≤ τ) {A : Quaternion ℝ} {t : ℝ}
    (l : List (F × F × F)) (hl : Follows ω τ η t (l.map c.rateOf)) :
    ‖c.path τ A l - q (t + l.length * τ)‖ ≤ ‖A - q t‖ + l.length * (L * τ ^ 2 / 4 + η * τ / 2) := by
  induction l generalizing A t with
  | nil => simp [GyrometerConfig.path]
  | cons x l ih =>
    rw [List.map_cons] at hl
    have k6 := ih (A := A * NormedSpace.exp ((τ / 2) • c.rateOf x)) hl.tail
    have m := h.measured (A := A) hτ (r := c.rateOf x) rfl hl.head
    rw [GyrometerConfig.path, List.length_cons]
    push_cast
    rw [show t + ((l.length : ℝ) + 1) * τ = t + τ + l.length * τ by ring]
    refine k6.trans ?_
    linarith

/-- C115: the closed form in binary32 follows a motion: the deviation grows per sample by at most
`L τ² / 4 + η τ / 2`, for the motion and the errors of the sensor, and `1.5e-5 + 5.1e-5 τ + 2e-5 C B τ`, for rounding. -/
theorem C115_closedF [Trig F] (h : Motion q ω L) (hs : Started a s) (hm : a.method = .ClosedForm) (hts : Finite a.ts) {B C : ℝ}
    (hC : a.config.UpTo C) (h1 : B ≤ 2 ^ 126) (h2 : C ≤ 2 ^ 98) (h3 : C * B ≤ 2 ^ 60) (h4 : C * B * ⟪a.ts⟫ ≤ 300)
    (h0 : 0 ≤ ⟪a.ts⟫) (h5 : ⟪a.ts⟫ ≤ 10 ^ 6) {E t : ℝ}
    (hA : ShowsF s fun f => NearUnit f ∧ ‖qval f - q t‖ ≤ E) (l : List (F × F × F))
    (hB : ∀ x ∈ l, a.config.Within B x)
    (hl : ∀ k, (hk : k < l.length) → ∃ u ∈ Set.Icc (t + k * ⟪a.ts⟫) (t + (k + 1) * ⟪a.ts⟫), ‖a.config.rateOf l[k] - ω u‖ ≤ η) :
    ∃ s', feed l s = (.ok (), s') ∧ ShowsF s' fun f => NearUnit f ∧ ‖qval f - q (t + l.length * ⟪a.ts⟫)‖ ≤
      E + l.length * (L * ⟪a.ts⟫ ^ 2 / 4 + η * ⟪a.ts⟫ / 2 + (15 / 10 ^ 6 + 51 / 10 ^ 6 * ⟪a.ts⟫ + 20 / 10 ^ 6 * (C * B * ⟪a.ts⟫))) := by
  obtain ⟨s', k1, -, v, f, a1, a2, a3, a4, a5⟩ := C83_track hs hm hts hC h1 h2 h3 (by rwa [abs_of_nonneg h0])
    (by rwa [abs_of_nonneg h0]) hA l hB
  refine ⟨s', k1, v, f, a1, a2, a3, a4, ?_⟩
  have p := GyrometerConfig.path_motion (A := q t) (η := η) (t := t) (c := a.config) h h0 l (by
    intro k hk
    have := hl k (by simpa using hk)
    simpa using this)
  rw [sub_self, norm_zero, zero_add] at p
  rw [abs_of_nonneg h0] at a5
  have t1 := norm_sub_le_norm_sub_add_norm_sub (qval f) (a.config.path ⟪a.ts⟫ (q t) l) (q (t + l.length * ⟪a.ts⟫))
  linarith

/-- C115: and so does the Taylor series of order `N` (1 to 20), with the terms of C114 for rounding and for the series. -/
theorem C115_taylorF [Powers F] [Literals F] [Halves F] (h : Motion q ω L) (hs : Started a s) (hm : a.method = .TaylorSeries)
    (ho1 : 1 ≤ a.order) (ho : a.order ≤ 20) (hts : Finite a.ts) {B C b : ℝ}
    (hC : a.config.UpTo C) (h1 : B ≤ 2 ^ 126) (h2 : C ≤ 2 ^ 98) (h3 : C * B ≤ 2 ^ 60) (h4 : C * B * ⟪a.ts⟫ ≤ 100)
    (h0 : 0 ≤ ⟪a.ts⟫) (h5 : ⟪a.ts⟫ ≤ 10 ^ 6) (hb : b ≤ 49 / 100) {E t : ℝ}
    (hA : ShowsF s fun f => NearUnit f ∧ ‖qval f - q t‖ ≤ E) (l : List (F × F × F))
    (hB : ∀ x ∈ l, a.config.Within B x ∧ ‖(⟪a.ts⟫ / 2) • a.config.rateOf x‖ ≤ b)
    (hl : ∀ k, (hk : k < l.length) → ∃ u ∈ Set.Icc (t + k * ⟪a.ts⟫) (t + (k + 1) * ⟪a.ts⟫), ‖a.config.rateOf l[k] - ω u‖ ≤ η) :
    ∃ s', feed l s = (.ok (), s') ∧ ShowsF s' fun f => NearUnit f ∧ ‖qval f - q (t + l.length * ⟪a.ts⟫)‖ ≤
      E + l.length * (L * ⟪a.ts⟫ ^ 2 / 4 + η * ⟪a.ts⟫ / 2 + (8 / 10 ^ 6 + 4 / 10 ^ 7 * a.order + 6 / 10 ^ 5 * b +
        51 / 10 ^ 6 * ⟪a.ts⟫ + 9 / 10 ^ 6 * (C * B * ⟪a.ts⟫) + (if a.order = 1 then 0 else 288 / 100 * b ^ 2) + 34 / 100 * b ^ 3)) := by
  obtain ⟨s', k1, -, v, f, a1, a2, a3, a4, a5⟩ := C114_track hs hm ho1 ho hts hC h1 h2 h3 (by rwa [abs_of_nonneg h0])
    (by rwa [abs_of_nonneg h0]) hb hA l hB
  refine ⟨s', k1, v, f, a1, a2, a3, a4, ?_⟩
  have p := GyrometerConfig.path_motion (A := q t) (η := η) (t := t) (c := a.config) h h0 l (by
    intro k hk
    have := hl k (by simpa using hk)
    simpa using this)
  rw [sub_self, norm_zero, zero_add] at p
  rw [abs_of_nonneg h0] at a5
  have t1 := norm_sub_le_norm_sub_add_norm_sub (qval f) (a.config.path ⟪a.ts⟫ (q t) l) (q (t + l.length * ⟪a.ts⟫))
  linarith

/-- The hypotheses of `C115_closedF` hold for the constant rate (1, 0, 0), read 200 times. -/
example : ∃ s s', Started plainT s ∧ feed (List.replicate 200 ((lit 1, lit 0, lit 0) : F32T × F32T × F32T)) s = (.ok (), s') ∧
    ShowsF s' fun f => NearUnit f ∧
      ‖qval f - NormedSpace.exp ((200 * ⟪plainT.ts⟫) • ((1 / 2 : ℝ) • mkQ (0 : ℝ) 1 0 0))‖ ≤ 4 / 1000 := by
  obtain ⟨s, hs, hA⟩ := plainT_started
  have v0 := Rounded.zero_val (F := F32T)
  have v1 := Rounded.one_val (F := F32T)
  have w0 := Rounded.zero_finite (F := F32T)
  have w1 := Rounded.one_finite (F := F32T)
  obtain ⟨t1, t2⟩ := plainT_ts
  have t0 : 0 ≤ ⟪plainT.ts⟫ := by
    have e : (lit (1 / 100) : F32) = ⟨.fin (10737418 / 1073741824)⟩ := by decide +kernel
    show 0 ≤ F32.toReal (lit (1 / 100) : F32)
    rw [e, F32.toReal_fin]
    norm_num
  have t3 : ⟪plainT.ts⟫ ≤ 11 / 1000 := (le_abs_self _).trans t2
  obtain ⟨s', k1, v, f, a1, a2, a3, a4, a5⟩ := C115_closedF (B := 2) (C := 1) (η := 0) (t := 0) (E := 0)
    (Motion.const (A := 1) (v := mkQ (0 : ℝ) 1 0 0) norm_one rfl) hs rfl t1 (by
      intro k hk
      have : k = lit 1 ∨ k = lit 0 := by
        simp [plainT, GyrometerConfig.default] at hk
        tauto
      rcases this with rfl | rfl
      · rw [v1]; norm_num
      · rw [v0]; norm_num)
    (by norm_num) (by norm_num) (by norm_num) (by linarith) t0 (t3.trans (by norm_num)) (by simpa using hA)
    (List.replicate 200 ((lit 1, lit 0, lit 0) : F32T × F32T × F32T)) (by
      intro x hx
      rw [(List.mem_replicate.mp hx).2]
      have b0 : ⟪plainT.config.xBias⟫ = 0 ∧ ⟪plainT.config.yBias⟫ = 0 ∧ ⟪plainT.config.zBias⟫ = 0 := ⟨v0, v0, v0⟩
      unfold GyrometerConfig.Within
      rw [b0.1, b0.2.1, b0.2.2]
      simp [v0, v1, w0, w1])
    (by
      intro k hk
      refine ⟨0 + k * ⟪plainT.ts⟫, ⟨le_rfl, by linarith⟩, ?_⟩
      rw [List.getElem_replicate]
      have : plainT.config.rateOf (lit 1, lit 0, lit 0) = mkQ (0 : ℝ) 1 0 0 := by
        simp only [GyrometerConfig.rateOf, GyrometerConfig.real, GyrometerConfig.rate, plainT, GyrometerConfig.default, v0, v1]
        norm_num
      rw [this, sub_self, norm_zero])
  refine ⟨s, s', hs, k1, v, f, a1, a2, a3, a4, ?_⟩
  rw [List.length_replicate, zero_add, zero_add, one_mul] at a5
  refine a5.trans ?_
  norm_num
  linarith

/-- The hypotheses of `C115_taylorF` hold for the constant rate (1, 0, 0), read 20 times. -/
example : ∃ s s', Started plainS s ∧ feed (List.replicate 20 ((lit 1, lit 0, lit 0) : F32 × F32 × F32)) s = (.ok (), s') ∧
    ShowsF s' fun f => NearUnit f ∧
      ‖qval f - NormedSpace.exp ((20 * ⟪plainS.ts⟫) • ((1 / 2 : ℝ) • mkQ (0 : ℝ) 1 0 0))‖ ≤ 8 / 1000 := by
  obtain ⟨s, hs, hA⟩ := plainS_started
  have v0 := Rounded.zero_val (F := F32)
  have v1 := Rounded.one_val (F := F32)
  have w0 := Rounded.zero_finite (F := F32)
  have w1 := Rounded.one_finite (F := F32)
  obtain ⟨t1, t2⟩ := plainE_ts
  have t0 : 0 ≤ ⟪plainS.ts⟫ := by
    have e : (lit (1 / 100) : F32) = ⟨.fin (10737418 / 1073741824)⟩ := by decide +kernel
    show 0 ≤ F32.toReal (lit (1 / 100) : F32)
    rw [e, F32.toReal_fin]
    norm_num
  have t3 : ⟪plainS.ts⟫ ≤ 11 / 1000 := (le_abs_self _).trans t2
  have hr : plainS.config.rateOf (lit 1, lit 0, lit 0) = mkQ (0 : ℝ) 1 0 0 := by
    simp only [GyrometerConfig.rateOf, GyrometerConfig.real, GyrometerConfig.rate, plainS, plainE, GyrometerConfig.default, v0, v1]
    norm_num
  obtain ⟨s', k1, v, f, a1, a2, a3, a4, a5⟩ := C115_taylorF (B := 2) (C := 1) (b := 11 / 1000) (η := 0) (t := 0) (E := 0)
    (Motion.const (A := 1) (v := mkQ (0 : ℝ) 1 0 0) norm_one rfl) hs rfl (by decide) (by decide) t1 (by
      intro k hk
      have : k = lit 1 ∨ k = lit 0 := by
        simp [plainS, plainE, GyrometerConfig.default] at hk
        tauto
      rcases this with rfl | rfl
      · rw [v1]; norm_num
      · rw [v0]; norm_num)
    (by norm_num) (by norm_num) (by norm_num) (by linarith) t0 (t3.trans (by norm_num)) (by norm_num) (by simpa using hA)
    (List.replicate 20 ((lit 1, lit 0, lit 0) : F32 × F32 × F32)) (by
      intro x hx
      rw [(List.mem_replicate.mp hx).2]
      have b0 : ⟪plainS.config.xBias⟫ = 0 ∧ ⟪plainS.config.yBias⟫ = 0 ∧ ⟪plainS.config.zBias⟫ = 0 := ⟨v0, v0, v0⟩
      constructor
      · unfold GyrometerConfig.Within
        rw [b0.1, b0.2.1, b0.2.2]
        simp [v0, v1, w0, w1]
      · rw [hr, norm_smul, norm_mkQ, Real.norm_eq_abs, abs_of_nonneg (by linarith)]
        norm_num
        linarith)
    (by
      intro k hk
      refine ⟨0 + k * ⟪plainS.ts⟫, ⟨le_rfl, by linarith⟩, ?_⟩
      rw [List.getElem_replicate, hr, sub_self, norm_zero])
  refine ⟨s, s', hs, k1, v, f, a1, a2, a3, a4, ?_⟩
  rw [List.length_replicate, zero_add, zero_add, one_mul] at a5
  refine a5.trans ?_
  rw [show plainS.order = 3 from rfl]
  norm_num
  linarith

end
end Verif
