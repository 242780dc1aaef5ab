import Verif.Props.RoundedMargStep
import Verif.Props.AquaSettle

/-
A MARG filter at rest in binary32 stays aligned (C112).
-/

set_option linter.unusedSectionVars false

namespace Verif
open Scalar Finset

namespace Aqua

/-- The horizontal length. -/
noncomputable def hor (v : Fin 3 → ℝ) : ℝ := √(v 0 * v 0 + v 1 * v 1)

/-- The frame `U` is level up to the angle `2 asin (δ / 2)` for the acceleration `a` and its heading is right up to
`2 asin (ε / 2)` for the field direction `m`. -/
structure Aligned (U : Quaternion ℝ) (a m : Fin 3 → ℝ) (δ ε : ℝ) : Prop where
  tilt : norm3 a + unrot U a 2 ≤ δ ^ 2 / 2 * norm3 a
  heading : hor (unrot U m) - unrot U m 0 ≤ ε ^ 2 / 2 * hor (unrot U m)

theorem pureQ_sub (u v : Fin 3 → ℝ) : pureQ u - pureQ v = mkQ 0 (u 0 - v 0) (u 1 - v 1) (u 2 - v 2) := by
  apply Quaternion.ext <;> simp [pureQ]

theorem tilt_iff {g : Fin 3 → ℝ} {n δ : ℝ} (hg : norm3 g = n) (hn : 0 < n) (hδ : 0 ≤ δ) :
    n + g 2 ≤ δ ^ 2 / 2 * n ↔ ‖pureQ g - mkQ 0 0 0 (-n)‖ ≤ δ * n := by
  have hs := norm3_sq g
  rw [hg] at hs
  have e : ‖pureQ g - mkQ 0 0 0 (-n)‖ ^ 2 = 2 * n * (n + g 2) := by
    have : pureQ g - mkQ 0 0 0 (-n) = mkQ 0 (g 0) (g 1) (g 2 + n) := by apply Quaternion.ext <;> simp [pureQ]
    rw [this, quat_norm_sq]
    simp only [mkQ]
    linarith
  constructor
  · intro h
    refine abs_le_of_sq_le_sq' ?_ (by positivity) |>.2
    rw [e]
    have := mul_le_mul_of_nonneg_left h (show 0 ≤ 2 * n by linarith)
    linarith
  · intro h
    have := pow_le_pow_left₀ (norm_nonneg _) h 2
    rw [e] at this
    have h2 : 2 * n * (n + g 2) ≤ 2 * n * (δ ^ 2 / 2 * n) := by linarith
    exact le_of_mul_le_mul_left h2 (by linarith)

theorem hor_nonneg (v : Fin 3 → ℝ) : 0 ≤ hor v := Real.sqrt_nonneg _

theorem hor_sq (v : Fin 3 → ℝ) : hor v ^ 2 = v 0 * v 0 + v 1 * v 1 :=
  Real.sq_sqrt (by nlinarith [mul_self_nonneg (v 0), mul_self_nonneg (v 1)])

theorem hor_norm (v : Fin 3 → ℝ) : ‖mkQ 0 (v 0) (v 1) 0‖ = hor v := by
  rw [norm_mkQ, hor]
  congr 1
  ring

theorem le_hor (v : Fin 3 → ℝ) : v 0 ≤ hor v ∧ -hor v ≤ v 0 := by
  have := abs_le_of_sq_le_sq' (show v 0 ^ 2 ≤ hor v ^ 2 by rw [hor_sq]; nlinarith [mul_self_nonneg (v 1)]) (hor_nonneg v)
  exact ⟨this.2, this.1⟩

theorem heading_iff {v : Fin 3 → ℝ} {ε : ℝ} (hv : 0 < hor v) (hε : 0 ≤ ε) :
    hor v - v 0 ≤ ε ^ 2 / 2 * hor v ↔ ‖(hor v)⁻¹ • mkQ 0 (v 0) (v 1) 0 - mkQ 0 1 0 0‖ ≤ ε := by
  have hs := hor_sq v
  generalize hor v = H at *
  have e : ‖H⁻¹ • mkQ 0 (v 0) (v 1) 0 - mkQ 0 1 0 0‖ ^ 2 = 2 * (H - v 0) / H := by
    have : H⁻¹ • mkQ 0 (v 0) (v 1) 0 - mkQ 0 1 0 0 = mkQ 0 (H⁻¹ * v 0 - 1) (H⁻¹ * v 1) 0 := by
      rw [mkQ_smul]
      apply Quaternion.ext <;> simp
    rw [this, quat_norm_sq]
    simp only [mkQ]
    field_simp
    linarith
  constructor
  · intro h
    refine abs_le_of_sq_le_sq' ?_ hε |>.2
    rw [e, div_le_iff₀ hv]
    linarith
  · intro h
    have := pow_le_pow_left₀ (norm_nonneg _) h 2
    rw [e, div_le_iff₀ hv] at this
    linarith

theorem tilt_move {g g' : Fin 3 → ℝ} {n δ d : ℝ} (hg : norm3 g = n) (hg' : norm3 g' = n) (hn : 0 < n) (hδ : 0 ≤ δ)
    (h : n + g 2 ≤ δ ^ 2 / 2 * n) (hd : ‖pureQ g' - pureQ g‖ ≤ d * n) (hd0 : 0 ≤ d) : n + g' 2 ≤ (δ + d) ^ 2 / 2 * n := by
  rw [tilt_iff hg' hn (by linarith)]
  rw [tilt_iff hg hn hδ] at h
  have := norm_sub_le_norm_sub_add_norm_sub (pureQ g') (pureQ g) (mkQ 0 0 0 (-n))
  linarith

theorem heading_move {v v' : Fin 3 → ℝ} {ε d h : ℝ} (h0 : 0 < h) (hv : h ≤ hor v) (hv' : h ≤ hor v') (hε : 0 ≤ ε)
    (hh : hor v - v 0 ≤ ε ^ 2 / 2 * hor v) (hd : ‖pureQ v' - pureQ v‖ ≤ d) :
    hor v' - v' 0 ≤ (ε + d / h) ^ 2 / 2 * hor v' := by
  have d0 : 0 ≤ d := (norm_nonneg _).trans hd
  rw [heading_iff (by linarith) (by positivity)]
  rw [heading_iff (by linarith) hε] at hh
  have h1 := unit_close h0 (hv'.trans (hor_norm v').symm.le) (hv.trans (hor_norm v).symm.le)
  rw [hor_norm, hor_norm] at h1
  have h2 : ‖mkQ 0 (v' 0) (v' 1) 0 - mkQ 0 (v 0) (v 1) 0‖ ≤ d := by
    refine le_trans ?_ hd
    refine abs_le_of_sq_le_sq' ?_ (norm_nonneg _) |>.2
    rw [pureQ_sub, show mkQ 0 (v' 0) (v' 1) 0 - mkQ 0 (v 0) (v 1) 0 = mkQ 0 (v' 0 - v 0) (v' 1 - v 1) 0 by
      apply Quaternion.ext <;> simp, quat_norm_sq, quat_norm_sq]
    simp only [mkQ]
    nlinarith [sq_nonneg (v' 2 - v 2)]
  have h3 := h1.trans (div_le_div_of_nonneg_right h2 h0.le)
  have := norm_sub_le_norm_sub_add_norm_sub ((hor v')⁻¹ • mkQ 0 (v' 0) (v' 1) 0) ((hor v)⁻¹ • mkQ 0 (v 0) (v 1) 0) (mkQ 0 1 0 0)
  linarith

theorem unrot_dot {U : Quaternion ℝ} (hU : ‖U‖ = 1) (a m : Fin 3 → ℝ) :
    unrot U a 0 * unrot U m 0 + unrot U a 1 * unrot U m 1 + unrot U a 2 * unrot U m 2 = a 0 * m 0 + a 1 * m 1 + a 2 * m 2 := by
  have hs := normSq_of_norm hU
  have h1 := congrArg (· ^ 2) (unrot_norm hs (fun i => a i + m i))
  have h2 := congrArg (· ^ 2) (unrot_norm hs a)
  have h3 := congrArg (· ^ 2) (unrot_norm hs m)
  simp only [norm3_sq] at h1 h2 h3
  have hl : ∀ i, unrot U (fun i => a i + m i) i = unrot U a i + unrot U m i := fun i => by unfold unrot; ring
  rw [hl, hl, hl] at h1
  linarith

/-- The field keeps a horizontal part in a nearly level frame. -/
theorem hor_ge {U : Quaternion ℝ} (hU : ‖U‖ = 1) {a m : Fin 3 → ℝ} {n δ c h : ℝ} (hn : norm3 a = n) (n0 : 0 < n)
    (hm : norm3 m = 1) (hδ : 0 ≤ δ) (ht : n + unrot U a 2 ≤ δ ^ 2 / 2 * n) (hc : c * n = a 0 * m 0 + a 1 * m 1 + a 2 * m 2)
    (hh : h ^ 2 + (|c| + δ) ^ 2 ≤ 1) : h ≤ hor (unrot U m) := by
  have hs := normSq_of_norm hU
  have ha := (unrot_norm hs a).trans hn
  have hmn := norm3_sq (unrot U m)
  rw [unrot_norm hs, hm] at hmn
  rw [tilt_iff ha n0 hδ] at ht
  have hd := unrot_dot hU a m
  rw [← hc] at hd
  generalize unrot U a = g at *
  generalize unrot U m = v at *
  have hg2 : g 0 ^ 2 + g 1 ^ 2 + (g 2 + n) ^ 2 ≤ (δ * n) ^ 2 := by
    have := pow_le_pow_left₀ (norm_nonneg _) ht 2
    rw [show pureQ g - mkQ 0 0 0 (-n) = mkQ 0 (g 0) (g 1) (g 2 + n) by apply Quaternion.ext <;> simp [pureQ],
      quat_norm_sq] at this
    simp only [mkQ] at this
    linarith
  have hz : |v 2 + c| ≤ δ := by
    have e : n * (v 2 + c) = g 0 * v 0 + g 1 * v 1 + (g 2 + n) * v 2 := by linarith
    have h1 : |n * (v 2 + c)| ≤ n * δ := by
      refine abs_le_of_sq_le_sq ?_ (by positivity)
      rw [e]
      have cs : (g 0 * v 0 + g 1 * v 1 + (g 2 + n) * v 2) ^ 2 ≤
          (g 0 ^ 2 + g 1 ^ 2 + (g 2 + n) ^ 2) * (v 0 ^ 2 + v 1 ^ 2 + v 2 ^ 2) := by
        nlinarith [sq_nonneg (g 0 * v 1 - g 1 * v 0), sq_nonneg (g 0 * v 2 - (g 2 + n) * v 0),
          sq_nonneg (g 1 * v 2 - (g 2 + n) * v 1)]
      rw [← hmn] at cs
      linarith
    rw [abs_mul, abs_of_pos n0] at h1
    exact le_of_mul_le_mul_left h1 n0
  have hz2 : |v 2| ≤ |c| + δ := by
    have := abs_sub_abs_le_abs_sub (v 2) (-c)
    rw [abs_neg, sub_neg_eq_add] at this
    linarith
  have hz3 : v 2 ^ 2 ≤ (|c| + δ) ^ 2 := by
    rw [← sq_abs (v 2)]
    exact pow_le_pow_left₀ (abs_nonneg _) hz2 2
  refine abs_le_of_sq_le_sq' ?_ (hor_nonneg v) |>.2
  rw [hor_sq]
  nlinarith

/-- The acceleration correction of a frame at rest. -/
theorem rest_acc {P : Quaternion ℝ} {a m : Fin 3 → ℝ} {n α δ ρ : ℝ} (hP : ‖P‖ = 1) (hn : norm3 a = n) (n0 : 0 < n)
    (hm : norm3 m = 1) (ha : 0 < α ∧ α ≤ 1) (hr : unrot P a 2 < 0) (hδ : 0 ≤ δ) (ht : n + unrot P a 2 ≤ δ ^ 2 / 2 * n)
    (hρ : ρ = 1 - 2 * α * n / ((1 + max 1 n) ^ 2 * (1 + α ^ 2 * n ^ 2))) {B : Quaternion ℝ}
    (hB : B = P * lerpQ α (accQ (unrot P a))) :
    ‖B‖ = 1 ∧ n + unrot B a 2 ≤ ρ * (n + unrot P a 2) ∧ ρ ≤ 1 ∧ 0 ≤ ρ ∧
      ‖pureQ (unrot B m) - pureQ (unrot P m)‖ ≤ 2 * α * n * δ := by
  have hs := normSq_of_norm hP
  obtain ⟨p, hp⟩ : ∃ p, p = unrot P a 0 := ⟨_, rfl⟩
  obtain ⟨q, hq⟩ : ∃ q, q = unrot P a 1 := ⟨_, rfl⟩
  obtain ⟨r, hr'⟩ : ∃ r, r = unrot P a 2 := ⟨_, rfl⟩
  have hg : unrot P a = ![p, q, r] := by
    funext k
    fin_cases k
    · exact hp.symm
    · exact hq.symm
    · exact hr'.symm
  rw [← hr'] at hr ht ⊢
  have hpq : p ^ 2 + q ^ 2 + r ^ 2 = n ^ 2 := by
    rw [← hn, ← unrot_norm hs a, norm3_sq, hp, hq, hr']
  have hrn := (abs_le_of_sq_le_sq' (show r ^ 2 ≤ n ^ 2 by linarith [sq_nonneg p, sq_nonneg q]) n0.le).1
  have hl0 : 0 < √((1 - r) / 2) := Real.sqrt_pos.mpr (by linarith)
  have hI : Inter α 0 (accQ ![p, q, r]) (lerpQ α (accQ ![p, q, r])) := by
    refine Or.inl ⟨?_, rfl⟩
    unfold accQ
    rw [if_pos (show (![p, q, r] : Fin 3 → ℝ) 2 < 0 from hr)]
    exact hl0
  obtain ⟨hI1, ⟨p', q', r', e1, e2⟩, hV⟩ := acc_turn ⟨ha.1.le, ha.2⟩ hr hpq rfl rfl rfl hl0 hI
  rw [← hg] at hI1 e1 hV
  have hB1 : ‖B‖ = 1 := by rw [hB, norm_mul, hP, hI1, one_mul]
  have hf := tilt_factor ha hr (n := n) (by linarith) rfl rfl rfl (le_max_left 1 n) (le_max_right 1 n)
  rw [← hρ] at hf
  have e1' : pureQ (unrot P a) = mkQ 0 p q r := by rw [hg]; rfl
  have e3 : unrot B a 2 = r' := by
    have h1 := unrot_eq hB1 a
    rw [hB, back_mul, ← unrot_eq hP, e1', e1, ← hB] at h1
    exact congrArg (fun q : Quaternion ℝ => q.imK) h1
  have hp0 : 0 < 2 * α * n / ((1 + max 1 n) ^ 2 * (1 + α ^ 2 * n ^ 2)) := by
    have := ha.1
    have : 0 < max 1 n := lt_of_lt_of_le one_pos (le_max_left _ _)
    positivity
  have hq0 : 0 ≤ (1 - α + α * √((1 - r) / 2) - α / (2 * √((1 - r) / 2)) * (n - r)) ^ 2 /
      ((1 - α + α * √((1 - r) / 2)) ^ 2 + (α / (2 * √((1 - r) / 2))) ^ 2 * (n ^ 2 - r ^ 2)) := by
    have : 0 ≤ n ^ 2 - r ^ 2 := by linarith [sq_nonneg p, sq_nonneg q]
    positivity
  refine ⟨hB1, ?_, by rw [hρ]; linarith, hq0.trans hf, ?_⟩
  · rw [e3, e2, mul_div_assoc, mul_comm]
    exact mul_le_mul_of_nonneg_right hf (by linarith)
  · have h1 := hV (pureQ (unrot P m))
    rw [norm_pureQ, unrot_norm hs, hm, mul_one] at h1
    have h2 := unrot_eq hB1 m
    rw [hB, back_mul, ← unrot_eq hP, ← hB] at h2
    rw [← h2] at h1
    refine h1.trans ((turn_le ⟨ha.1.le, ha.2⟩ hr.le (by linarith) rfl rfl rfl).trans ?_)
    have h3 : √(n + r) ≤ √(δ ^ 2 / 2 * n) := Real.sqrt_le_sqrt ht
    have h4 : √(2 * n) * √(δ ^ 2 / 2 * n) = n * δ := by
      rw [← Real.sqrt_mul (by linarith), show 2 * n * (δ ^ 2 / 2 * n) = (n * δ) ^ 2 by ring, Real.sqrt_sq (by positivity)]
    calc 2 * α * √(2 * n) * √(n + r) ≤ 2 * α * √(2 * n) * √(δ ^ 2 / 2 * n) := by
          have := ha.1
          gcongr
      _ = 2 * α * (√(2 * n) * √(δ ^ 2 / 2 * n)) := by ring
      _ = 2 * α * n * δ := by rw [h4]; ring

/-- The field correction of a frame at rest. -/
theorem rest_mag {B : Quaternion ℝ} {a m : Fin 3 → ℝ} {β ε κ : ℝ} (hB : ‖B‖ = 1) (hb : 0 ≤ β ∧ β ≤ 1)
    (hH : 0 < hor (unrot B m)) (hε : 0 ≤ ε) (hε2 : ε < 2) (hh : hor (unrot B m) - unrot B m 0 ≤ ε ^ 2 / 2 * hor (unrot B m))
    (hκ : κ = (1 - β) ^ 2 / ((1 - β) ^ 2 + β ^ 2)) {X : Quaternion ℝ}
    (hX : X = B * lerpQ β (magPos (unrot B m 0) (unrot B m 1))) :
    ‖X‖ = 1 ∧ unrot X a 2 = unrot B a 2 ∧ hor (unrot X m) = hor (unrot B m) ∧
      hor (unrot X m) - unrot X m 0 ≤ κ * (ε ^ 2 / 2) * hor (unrot X m) ∧ 0 ≤ κ ∧ κ ≤ 1 ∧
      √(1 - ε ^ 2 / 4) ≤ (magPos (unrot B m 0) (unrot B m 1)).re := by
  obtain ⟨H, hH'⟩ : ∃ H, H = hor (unrot B m) := ⟨_, rfl⟩
  obtain ⟨x, hx⟩ : ∃ x, x = unrot B m 0 := ⟨_, rfl⟩
  obtain ⟨y, hy⟩ : ∃ y, y = unrot B m 1 := ⟨_, rfl⟩
  obtain ⟨z, hz⟩ : ∃ z, z = unrot B m 2 := ⟨_, rfl⟩
  have hHe : H = √(x * x + y * y) := by rw [hH', hx, hy]; rfl
  have hle := le_hor (unrot B m)
  rw [← hH', ← hx] at hle
  rw [← hH'] at hH hh ⊢
  rw [← hx] at hh hX ⊢
  rw [← hy] at hX ⊢
  have hε4 : ε ^ 2 < 4 := by nlinarith
  have hx1 : H - x < 2 * H * (1 - 0 ^ 2) := by
    have := mul_lt_mul_of_pos_right (show ε ^ 2 / 2 < 2 by linarith) hH
    linarith
  obtain ⟨hp, J, hJ, hJ1, x', y', e3, e4, e5⟩ := mag_turn z hb hHe hx1
  obtain ⟨S, j1, j2, -⟩ := magPos_parts hHe hp
  have hre : 0 < √((H + x) / (2 * H)) := Real.sqrt_pos.mpr (by positivity)
  have hJe : J = lerpQ β (magPos x y) := by
    rcases hJ with ⟨-, h⟩ | ⟨h, -⟩
    · exact h
    · rw [j1] at h
      exact absurd hre (not_lt.mpr h)
  rw [← hJe] at hX
  rw [j1] at hJ
  obtain ⟨j3, j4⟩ := inter_axis hJ
  have hX1 : ‖X‖ = 1 := by rw [hX, norm_mul, hB, hJ1, one_mul]
  have hXm : pureQ (unrot X m) = mkQ 0 x' y' z := by
    rw [unrot_eq hX1, hX, back_mul, ← unrot_eq hB, show pureQ (unrot B m) = mkQ 0 x y z by rw [hx, hy, hz]; rfl, e3]
  have x0 : unrot X m 0 = x' := congrArg (fun q : Quaternion ℝ => q.imI) hXm
  have x1 : unrot X m 1 = y' := congrArg (fun q : Quaternion ℝ => q.imJ) hXm
  have hHX : hor (unrot X m) = H := by
    unfold hor
    rw [x0, x1, e4, hHe]
  have hXa : unrot X a 2 = unrot B a 2 := by
    obtain ⟨p'', q'', e6⟩ := axis_keeps j3 j4 hJ1 (unrot B a 0) (unrot B a 1) (unrot B a 2)
    have h1 := unrot_eq hX1 a
    rw [hX, back_mul, ← unrot_eq hB, ← hX] at h1
    exact congrArg (fun q : Quaternion ℝ => q.imK) (h1.trans e6)
  have hden : 0 < (1 - β) ^ 2 + β ^ 2 := by nlinarith [sq_nonneg (1 - 2 * β)]
  have k0 : 0 ≤ κ := by rw [hκ]; exact div_nonneg (sq_nonneg _) hden.le
  have k1 : κ ≤ 1 := by rw [hκ, div_le_one hden]; linarith [sq_nonneg β]
  refine ⟨hX1, hXa, hHX, ?_, k0, k1, ?_⟩
  · rw [hHX, x0, e5]
    have hf := heading_factor hb (Real.sqrt_nonneg ((H + x) / (2 * H)))
    rw [← hκ] at hf
    calc _ ≤ (H - x) * κ := mul_le_mul_of_nonneg_left hf (by linarith)
      _ ≤ (ε ^ 2 / 2 * H) * κ := mul_le_mul_of_nonneg_right hh k0
      _ = _ := by ring
  · rw [j1]
    show √(1 - ε ^ 2 / 4) ≤ √((H + x) / (2 * H))
    apply Real.sqrt_le_sqrt
    rw [le_div_iff₀ (by linarith)]
    linarith

/-- A unit frame near another one. -/
theorem rest_move {X U : Quaternion ℝ} {a m : Fin 3 → ℝ} {n δ ε E h c δ' : ℝ} (hX : ‖X‖ = 1) (hU : ‖U‖ = 1) (hE : ‖U - X‖ ≤ E)
    (hE1 : E ≤ 1 / 100) (hn : norm3 a = n) (n0 : 0 < n) (hm : norm3 m = 1) (hδ : 0 ≤ δ) (hε : 0 ≤ ε)
    (h1 : n + unrot X a 2 ≤ δ ^ 2 / 2 * n) (h2 : hor (unrot X m) - unrot X m 0 ≤ ε ^ 2 / 2 * hor (unrot X m))
    (h0 : 0 < h) (h3 : h ≤ hor (unrot X m)) (hδ' : δ + 201 / 100 * E ≤ δ')
    (hc : c * n = a 0 * m 0 + a 1 * m 1 + a 2 * m 2) (hh : h ^ 2 + (|c| + δ') ^ 2 ≤ 1) :
    Aligned U a m (δ + 201 / 100 * E) (ε + 201 / 100 * E / h) := by
  have E0 : 0 ≤ E := (norm_nonneg _).trans hE
  have hd : E * (2 + E) ≤ 201 / 100 * E := by nlinarith
  have m1 : ‖pureQ (unrot U a) - pureQ (unrot X a)‖ ≤ 201 / 100 * E * n := by
    rw [unrot_eq hU, unrot_eq hX]
    refine (conj_dist hX hE).trans ?_
    rw [norm_pureQ, hn]
    exact mul_le_mul_of_nonneg_right hd n0.le
  have m2 : ‖pureQ (unrot U m) - pureQ (unrot X m)‖ ≤ 201 / 100 * E := by
    rw [unrot_eq hU, unrot_eq hX]
    refine (conj_dist hX hE).trans ?_
    rw [norm_pureQ, hm, mul_one]
    exact hd
  have t1 := tilt_move ((unrot_norm (normSq_of_norm hX) a).trans hn) ((unrot_norm (normSq_of_norm hU) a).trans hn) n0 hδ h1 m1
    (by linarith)
  have t2 : h ≤ hor (unrot U m) := by
    refine hor_ge hU hn n0 hm (by linarith) t1 hc ?_
    have : (|c| + (δ + 201 / 100 * E)) ^ 2 ≤ (|c| + δ') ^ 2 :=
      pow_le_pow_left₀ (by have := abs_nonneg c; linarith) (by linarith) 2
    linarith
  refine ⟨by rw [hn]; exact t1, heading_move h0 h3 t2 hε h2 m2⟩

/-- By how much an update shrinks the tilt. -/
noncomputable def tiltRate (α n : ℝ) : ℝ := √(1 - 2 * α * n / ((1 + max 1 n) ^ 2 * (1 + α ^ 2 * n ^ 2)))

/-- By how much an update shrinks the heading error. -/
noncomputable def headRate (β : ℝ) : ℝ := √((1 - β) ^ 2 / ((1 - β) ^ 2 + β ^ 2))

/-- The weight of an acceleration of norm `n` in the interpolation. -/
noncomputable def accWeight (α n : ℝ) : ℝ := α * √((1 + n) / 2) / (1 - α + α * √((1 + n) / 2))

/-- The tilt `δ` and the heading error `ε` are small enough for an update: `α`, `β` are the gains, `t`, `u` the thresholds,
`n` the norm of the acceleration, `c` the cosine between the acceleration and the field, `h` a lower bound of the
horizontal part of the direction of the field, `k` of its part ahead, and `E` bounds the rounding error of an update. -/
structure Fits (α β t u n c δ ε h k E : ℝ) : Prop where
  δ_nonneg : 0 ≤ δ
  δ_le : δ ≤ 1
  ε_nonneg : 0 ≤ ε
  h_pos : 0 < h
  hor : h ^ 2 + (|c| + δ) ^ 2 ≤ 1
  k_le : k ≤ (1 - (ε + 2 * α * n * δ / h) ^ 2 / 2) * h
  k_ge : 1 / 100 ≤ k
  acc : t ≤ (1 - 1 / 10 ^ 4) * √((1 + (1 - δ ^ 2 / 2) * n) / 2)
  mag : u + 24 / 10 ^ 5 / k ≤ √(1 - (ε + 2 * α * n * δ / h) ^ 2 / 4)
  err : 21 / 10 ^ 6 + 10 / 10 ^ 5 * accWeight α n + 37 / 10 ^ 5 * (β / k) ≤ E
  E_le : E ≤ 1 / 100

/-- The tilt `δ` and the heading error `ε` are small enough and reproduce themselves. -/
structure Closed (α β t u n c δ ε h k E : ℝ) : Prop extends Fits α β t u n c δ ε h k E where
  tilt : tiltRate α n * δ + 201 / 100 * E ≤ δ
  heading : headRate β * (ε + 2 * α * n * δ / h) + 201 / 100 * E / h ≤ ε

theorem weight_mono {α l l' : ℝ} (a0 : 0 < α) (a1 : α ≤ 1) (l0 : 0 < l) (h : l ≤ l') :
    α * l / (1 - α + α * l) ≤ α * l' / (1 - α + α * l') := by
  have h1 := mul_pos a0 l0
  have h2 := mul_pos a0 (l0.trans_le h)
  rw [div_le_div_iff₀ (by linarith) (by linarith)]
  have := mul_le_mul_of_nonneg_left (mul_le_mul_of_nonneg_left h a0.le) (sub_nonneg.mpr a1)
  linarith

theorem accQ_re {g : Fin 3 → ℝ} (h : g 2 < 0) : (accQ g).re = √((1 - g 2) / 2) := by
  unfold accQ
  rw [if_pos h]
  rfl

theorem Aligned.mono {U : Quaternion ℝ} {a m : Fin 3 → ℝ} {δ ε δ' ε' : ℝ} (h : Aligned U a m δ ε) (d0 : 0 ≤ δ) (d1 : δ ≤ δ')
    (e0 : 0 ≤ ε) (e1 : ε ≤ ε') : Aligned U a m δ' ε' := by
  have h1 : δ ^ 2 ≤ δ' ^ 2 := pow_le_pow_left₀ d0 d1 2
  have h2 : ε ^ 2 ≤ ε' ^ 2 := pow_le_pow_left₀ e0 e1 2
  exact ⟨h.tilt.trans (mul_le_mul_of_nonneg_right (by linarith) (norm3_nonneg a)),
    h.heading.trans (mul_le_mul_of_nonneg_right (by linarith) (hor_nonneg _))⟩

/-- A recurrence with a rate below 1. -/
theorem decay {R b x y x₀ : ℝ} {k : ℕ} (h0 : 0 ≤ R) (h1 : R < 1) (hx : x ≤ R ^ k * x₀ + b / (1 - R)) (hy : y ≤ R * x + b) :
    y ≤ R ^ (k + 1) * x₀ + b / (1 - R) := by
  have h2 := mul_le_mul_of_nonneg_left hx h0
  have h3 : b / (1 - R) * (1 - R) = b := div_mul_cancel₀ _ (by linarith)
  have h4 : R ^ (k + 1) * x₀ = R * (R ^ k * x₀) := by ring
  linarith

end Aqua

open Aqua
section
variable {F : Type} [Scalar F] [R : Rounded F] [Halves F] [ScalarLawful F] {s : Aqua F} {i : AquaInit F}
  {cg : GyrometerConfig F} {ca : AccelerometerConfig F} {cm : MagnetometerConfig F}
  {gx gy gz ax ay az mx my mz p q r x y z v w v' : F} {a m : Fin 3 → ℝ} {n c δ ε h k E δ₀ ε₀ : ℝ}

/-- What an update at rest needs: a MARG filter with a constant gain, settings between 0 and 1, readings of a rate of zero,
of the acceleration `a` and of the field `m`. -/
structure Aqua.AtRest (i : AquaInit F) (cg : GyrometerConfig F) (ca : AccelerometerConfig F) (cm : MagnetometerConfig F)
    (gx gy gz ax ay az mx my mz : F) (a m : Fin 3 → ℝ) : Prop where
  mode : i.mode = .MARG
  adaptive : i.adaptive = false
  settings : ∀ b ∈ [i.alpha, i.beta, i.tAcc, i.tMag], Finite b ∧ 0 ≤ ⟪b⟫ ∧ ⟪b⟫ ≤ 1
  alpha : 0 < ⟪i.alpha⟫
  ts : Finite i.ts ∧ |⟪i.ts⟫| ≤ 2 ^ 60
  rate : ∃ p q r, Gyrometer.Reads cg gx gy gz p q r ∧ ⟪p⟫ = 0 ∧ ⟪q⟫ = 0 ∧ ⟪r⟫ = 0
  acc : ∃ x y z, Accelerometer.Reads ca ax ay az x y z ∧ a = ![⟪x⟫, ⟪y⟫, ⟪z⟫]
  acc_norm : 10001 / 10 ^ 8 < norm3 a ∧ norm3 a ≤ 2 ^ 61
  field : ∃ x y z, Magnetometer.Reads cm mx my mz x y z ∧ m = ![⟪x⟫, ⟪y⟫, ⟪z⟫]
  field_norm : 10001 / 10 ^ 8 < norm3 m ∧ norm3 m ≤ 2 ^ 63

/-- What an update needs: a MARG filter with a constant gain, settings between 0 and 1, readings of the rate `ω`, of the
acceleration `a` and of the field `m`. -/
structure Aqua.Moving (i : AquaInit F) (cg : GyrometerConfig F) (ca : AccelerometerConfig F) (cm : MagnetometerConfig F)
    (gx gy gz ax ay az mx my mz : F) (ω : Quaternion ℝ) (a m : Fin 3 → ℝ) : Prop where
  mode : i.mode = .MARG
  adaptive : i.adaptive = false
  settings : ∀ b ∈ [i.alpha, i.beta, i.tAcc, i.tMag], Finite b ∧ 0 ≤ ⟪b⟫ ∧ ⟪b⟫ ≤ 1
  alpha : 0 < ⟪i.alpha⟫
  ts : Finite i.ts ∧ |⟪i.ts⟫| ≤ 2 ^ 60
  rate : ∃ p q r, Gyrometer.Reads cg gx gy gz p q r ∧ ω = mkQ 0 ⟪p⟫ ⟪q⟫ ⟪r⟫
  rate_norm : ‖ω‖ ≤ 2 ^ 63 ∧ ‖ω‖ * |⟪i.ts⟫| ≤ 2 ^ 60
  acc : ∃ x y z, Accelerometer.Reads ca ax ay az x y z ∧ a = ![⟪x⟫, ⟪y⟫, ⟪z⟫]
  acc_norm : 10001 / 10 ^ 8 < norm3 a ∧ norm3 a ≤ 2 ^ 61
  field : ∃ x y z, Magnetometer.Reads cm mx my mz x y z ∧ m = ![⟪x⟫, ⟪y⟫, ⟪z⟫]
  field_norm : 10001 / 10 ^ 8 < norm3 m ∧ norm3 m ≤ 2 ^ 63

theorem Aqua.AtRest.moving (h : AtRest i cg ca cm gx gy gz ax ay az mx my mz a m) :
    Moving i cg ca cm gx gy gz ax ay az mx my mz 0 a m := by
  obtain ⟨p, q, r, hr, p0, q0, r0⟩ := h.rate
  exact ⟨h.mode, h.adaptive, h.settings, h.alpha, h.ts, ⟨p, q, r, hr, by rw [p0, q0, r0]; rfl⟩, by norm_num, h.acc, h.acc_norm,
    h.field, h.field_norm⟩

/-- One update in binary32 from an attitude whose prediction is aligned with the readings. -/
theorem move_step {ω : Quaternion ℝ} (hs : Started i s) (hcg : s.getGyrometerConfig = .ok cg) (hca : s.getAccelerometerConfig = .ok ca)
    (hcm : s.getMagnetometerConfig = .ok cm) (hr : Moving i cg ca cm gx gy gz ax ay az mx my mz ω a m) (hn : norm3 a = n)
    (hc : c * n = a 0 * dir m 0 + a 1 * dir m 1 + a 2 * dir m 2)
    (hC : Fits ⟪i.alpha⟫ ⟪i.beta⟫ ⟪i.tAcc⟫ ⟪i.tMag⟫ n c δ ε h k E) (d0 : 0 ≤ δ₀) (d1 : δ₀ ≤ δ) (e0 : 0 ≤ ε₀) (e1 : ε₀ ≤ ε)
    (hdd : tiltRate ⟪i.alpha⟫ n * δ₀ + 201 / 100 * E ≤ δ)
    (hA : ShowsF s fun f => NearUnit f ∧ Aligned (predQ (qval f) ω ⟪i.ts⟫) a (dir m) δ₀ ε₀) :
    ∃ s', update (some gx) (some gy) (some gz) ax ay az mx my mz s = (.ok (), s') ∧
      ShowsF s' fun f => NearUnit f ∧ Aligned (unitOf (qval f)) a (dir m) (tiltRate ⟪i.alpha⟫ n * δ₀ + 201 / 100 * E)
        (headRate ⟪i.beta⟫ * (ε₀ + 2 * ⟪i.alpha⟫ * n * δ / h) + 201 / 100 * E / h) := by
  obtain ⟨p, q, r, rg, hω⟩ := hr.rate
  obtain ⟨x, y, z, ra, ha⟩ := hr.acc
  obtain ⟨u, v, w, rm, hm⟩ := hr.field
  obtain ⟨va, f, ea, hv, hf, nf, al⟩ := hA
  have n0 : 0 < n := by have := hr.acc_norm.1; rw [hn] at this; exact lt_trans (by norm_num) this
  obtain ⟨hα, a0, a1⟩ := hr.settings i.alpha (by simp)
  obtain ⟨hβ, b0, b1⟩ := hr.settings i.beta (by simp)
  obtain ⟨ht, t0, t1⟩ := hr.settings i.tAcc (by simp)
  obtain ⟨hu, u0, u1⟩ := hr.settings i.tMag (by simp)
  have a0' := hr.alpha
  have hfn := abs_le.mp nf
  norm_num at hfn
  have hA1 : epsilon ℝ < ‖qval f‖ := lt_of_lt_of_le (by norm_num [epsilon]) (show 1 / 2 ≤ ‖qval f‖ by linarith)
  obtain ⟨P, hPq⟩ : ∃ P, P = predQ (qval f) ω ⟪i.ts⟫ := ⟨_, rfl⟩
  have hP1 : ‖P‖ = 1 := by rw [hPq]; exact predQ_unit hA1 (by rw [hω]; rfl)
  rw [← hPq] at al
  have hme : epsilon ℝ < norm3 m := lt_trans (by norm_num [epsilon]) hr.field_norm.1
  have hm1 : norm3 (dir m) = 1 := dir_norm hme
  obtain ⟨at1, at2⟩ := al
  rw [hn] at at1
  have hδsq : δ₀ ^ 2 ≤ δ ^ 2 := pow_le_pow_left₀ d0 d1 2
  have hδsq1 : δ ^ 2 ≤ 1 := pow_le_one₀ hC.δ_nonneg hC.δ_le
  have at1' : n + unrot P a 2 ≤ δ ^ 2 / 2 * n := at1.trans (mul_le_mul_of_nonneg_right (by linarith) n0.le)
  have hg2 : unrot P a 2 ≤ -(n / 2) := by
    have := mul_le_mul_of_nonneg_right hδsq1 n0.le
    linarith
  obtain ⟨B, hB⟩ : ∃ B, B = P * lerpQ ⟪i.alpha⟫ (accQ (unrot P a)) := ⟨_, rfl⟩
  obtain ⟨B1, B2, ρ1, ρ0, B3⟩ := rest_acc hP1 hn n0 hm1 ⟨a0', a1⟩ (by linarith) d0 at1 rfl hB
  obtain ⟨-, -, -, -, B3⟩ := rest_acc hP1 hn n0 hm1 ⟨a0', a1⟩ (by linarith) hC.δ_nonneg at1' rfl hB
  have hrn : 0 ≤ n + unrot P a 2 := by
    have := (unrot_norm (normSq_of_norm hP1) a).trans hn
    have h2 := norm3_sq (unrot P a)
    rw [this] at h2
    have := (abs_le_of_sq_le_sq' (show unrot P a 2 ^ 2 ≤ n ^ 2 by linarith [sq_nonneg (unrot P a 0), sq_nonneg (unrot P a 1)])
      n0.le).1
    linarith
  have B2' : n + unrot B a 2 ≤ δ ^ 2 / 2 * n := by
    have := mul_le_mul_of_nonneg_right ρ1 hrn
    linarith
  have hP_h : h ≤ hor (unrot P (dir m)) := hor_ge hP1 hn n0 hm1 hC.δ_nonneg at1' hc hC.hor
  have hB_h : h ≤ hor (unrot B (dir m)) := hor_ge B1 hn n0 hm1 hC.δ_nonneg B2' hc hC.hor
  have B4 := heading_move hC.h_pos hP_h hB_h e0 at2 B3
  obtain ⟨D, hD⟩ : ∃ D, D = 2 * ⟪i.alpha⟫ * n * δ / h := ⟨_, rfl⟩
  have D0 : 0 ≤ D := by rw [hD]; have := hC.δ_nonneg; have := hC.h_pos; positivity
  have k_le := hC.k_le
  have hmag := hC.mag
  rw [← hD] at B4 k_le hmag ⊢
  have k0 : 0 < k := lt_of_lt_of_le (by norm_num) hC.k_ge
  have hee : (ε₀ + D) ^ 2 ≤ (ε + D) ^ 2 := pow_le_pow_left₀ (by linarith) (by linarith) 2
  have hsq2 : (ε + D) ^ 2 < 2 := by
    by_contra hcon
    have := mul_nonneg (show 0 ≤ (ε + D) ^ 2 / 2 - 1 by linarith) hC.h_pos.le
    linarith
  have he2 : ε₀ + D < 2 := by
    by_contra hcon
    have := pow_le_pow_left₀ (by norm_num) (not_lt.mp hcon) 2
    linarith
  obtain ⟨X, hX⟩ : ∃ X, X = B * lerpQ ⟪i.beta⟫ (magPos (unrot B (dir m) 0) (unrot B (dir m) 1)) := ⟨_, rfl⟩
  obtain ⟨X1, X2, X3, X4, κ0, κ1, X5⟩ := rest_mag (a := a) B1 ⟨b0, b1⟩ (hC.h_pos.trans_le hB_h) (by linarith) he2 B4 rfl hX
  have hkx : k ≤ unrot B (dir m) 0 := by
    have h1 : (1 - (ε + D) ^ 2 / 2) * h ≤ (1 - (ε + D) ^ 2 / 2) * hor (unrot B (dir m)) :=
      mul_le_mul_of_nonneg_left hB_h (by linarith)
    have h2 := mul_le_mul_of_nonneg_right hee (hor_nonneg (unrot B (dir m)))
    linarith
  have hl1 : √((1 + (1 - δ ^ 2 / 2) * n) / 2) ≤ √((1 - unrot P a 2) / 2) := Real.sqrt_le_sqrt (by linarith)
  obtain ⟨I, J, s', st, eu, v2, g, k1, k2, k3, k4, k5⟩ := C111_step (A := qval f) (ω := ω) (P := P) (B := B) (h := k)
    hs hr.mode hr.adaptive hcg hca hcm rg ra rm ⟨va, f, ea, hv, hf, rfl⟩ (by linarith) (by linarith) hr.settings hr.ts.1 hω
    hr.rate_norm.1 hr.rate_norm.2 (hr.ts.2.trans (by norm_num)) ha hn.symm
    (by rw [← hn]; exact hr.acc_norm.1) (by rw [← hn]; exact hr.acc_norm.2) hm hr.field_norm.1 hr.field_norm.2 hPq hg2 rfl
    (hC.acc.trans (mul_le_mul_of_nonneg_left hl1 (by norm_num))) hB hC.k_ge hkx
    (hmag.trans (le_trans (Real.sqrt_le_sqrt (by linarith)) X5))
  have hIl : I = lerpQ ⟪i.alpha⟫ (accQ (unrot P a)) := by
    have hI := st.acc
    rw [← hPq] at hI
    rcases hI with hI | ⟨hI, -⟩
    · exact hI.2
    · exfalso
      rw [accQ_re (by linarith)] at hI
      have h1 := hC.acc.trans (mul_le_mul_of_nonneg_left hl1 (by norm_num))
      have h2 : 0 < √((1 - unrot P a 2) / 2) := Real.sqrt_pos.mpr (by linarith)
      linarith
  have hJl : P * I * J = X := by
    have hJ := st.mag
    rw [← hPq, hIl, ← hB] at hJ
    rw [hIl, ← hB, hX]
    rcases hJ with hJ | ⟨hJ, -⟩
    · rw [hJ.2]
    · exfalso
      have h1 := hmag.trans (le_trans (Real.sqrt_le_sqrt (by linarith)) X5)
      have h2 : 0 < 24 / 10 ^ 5 / k := by positivity
      linarith
  refine ⟨s', eu, v2, g, k1, k2, k3, k4, ?_⟩
  rw [hJl, unitOf_unit X1] at k5
  have hg1 := abs_le.mp k4
  have hg2' : epsilon ℝ < ‖qval g‖ := lt_of_lt_of_le (by norm_num [epsilon]) (show 1 / 2 ≤ ‖qval g‖ by linarith [hg1.1])
  have hgd := unit_dist k4 (fun h0 => by rw [h0, norm_zero] at hg2'; exact absurd hg2' (not_lt.mpr (by norm_num [epsilon])))
  have hgu : unitOf (qval g) = ‖qval g‖⁻¹ • qval g := by unfold unitOf; rw [if_pos hg2']
  have hw : ⟪i.alpha⟫ * √((1 - unrot P a 2) / 2) / (1 - ⟪i.alpha⟫ + ⟪i.alpha⟫ * √((1 - unrot P a 2) / 2)) ≤ accWeight ⟪i.alpha⟫ n :=
    weight_mono a0' a1 (Real.sqrt_pos.mpr (by linarith)) (Real.sqrt_le_sqrt (by linarith))
  have hE : ‖unitOf (qval g) - X‖ ≤ E := by
    have h1 : unitOf (qval g) - X = (qval g - X) - (qval g - ‖qval g‖⁻¹ • qval g) := by rw [hgu]; abel
    rw [h1]
    refine (norm_sub_le _ _).trans ?_
    have := hC.err
    linarith
  have hR : (tiltRate ⟪i.alpha⟫ n * δ₀) ^ 2 / 2 * n = (1 - 2 * ⟪i.alpha⟫ * n / ((1 + max 1 n) ^ 2 * (1 + ⟪i.alpha⟫ ^ 2 * n ^ 2))) * (δ₀ ^ 2 / 2 * n) := by
    unfold tiltRate
    rw [mul_pow, Real.sq_sqrt ρ0]
    ring
  have hW : (headRate ⟪i.beta⟫ * (ε₀ + D)) ^ 2 / 2 * hor (unrot X (dir m)) = (1 - ⟪i.beta⟫) ^ 2 / ((1 - ⟪i.beta⟫) ^ 2 + ⟪i.beta⟫ ^ 2) * ((ε₀ + D) ^ 2 / 2) * hor (unrot X (dir m)) := by
    unfold headRate
    rw [mul_pow, Real.sq_sqrt κ0]
    ring
  have hR0 : 0 ≤ tiltRate ⟪i.alpha⟫ n := Real.sqrt_nonneg _
  refine rest_move (c := c) (δ' := δ) X1 (unitOf_norm hg2') hE hC.E_le hn n0 hm1 (mul_nonneg hR0 d0)
    (mul_nonneg (Real.sqrt_nonneg _) (by linarith)) ?_ (by rw [hW]; exact X4) hC.h_pos (by rw [X3]; exact hB_h) hdd hc hC.hor
  rw [X2, hR]
  exact B2.trans (mul_le_mul_of_nonneg_left at1 ρ0)

/-- One update at rest in binary32. -/
theorem rest_step (hs : Started i s) (hcg : s.getGyrometerConfig = .ok cg) (hca : s.getAccelerometerConfig = .ok ca)
    (hcm : s.getMagnetometerConfig = .ok cm) (hr : AtRest i cg ca cm gx gy gz ax ay az mx my mz a m) (hn : norm3 a = n)
    (hc : c * n = a 0 * dir m 0 + a 1 * dir m 1 + a 2 * dir m 2)
    (hC : Closed ⟪i.alpha⟫ ⟪i.beta⟫ ⟪i.tAcc⟫ ⟪i.tMag⟫ n c δ ε h k E) (d0 : 0 ≤ δ₀) (d1 : δ₀ ≤ δ) (e0 : 0 ≤ ε₀) (e1 : ε₀ ≤ ε)
    (hA : ShowsF s fun f => NearUnit f ∧ Aligned (unitOf (qval f)) a (dir m) δ₀ ε₀) :
    ∃ s', update (some gx) (some gy) (some gz) ax ay az mx my mz s = (.ok (), s') ∧
      ShowsF s' fun f => NearUnit f ∧ Aligned (unitOf (qval f)) a (dir m) (tiltRate ⟪i.alpha⟫ n * δ₀ + 201 / 100 * E)
        (headRate ⟪i.beta⟫ * (ε₀ + 2 * ⟪i.alpha⟫ * n * δ / h) + 201 / 100 * E / h) := by
  have hR0 : 0 ≤ tiltRate ⟪i.alpha⟫ n := Real.sqrt_nonneg _
  refine move_step hs hcg hca hcm hr.moving hn hc hC.toFits d0 d1 e0 e1 ?_ ?_
  · have := mul_le_mul_of_nonneg_left d1 hR0
    linarith [hC.tilt]
  · obtain ⟨va, f, ea, hv, hf, nf, al⟩ := hA
    refine ⟨va, f, ea, hv, hf, nf, ?_⟩
    unfold predQ
    rwa [mul_zero, smul_zero, add_zero]

/-- C112: a MARG filter with a constant gain that stays at rest, in binary32.  It is fed the same readings again and
again: a rate of zero, an acceleration of norm `n` and a field; the cosine between the two is `c`.  If the attitude is
level up to `δ₀` and heads the right way up to `ε₀`, below a `δ` and an `ε` that reproduce themselves, then every
update succeeds, the attitude stays a unit quaternion to within 10⁻⁶ and aligned up to `δ` and `ε`, and both errors
shrink by constant factors to levels set by the rounding error `E` of an update. -/
theorem C112_rest (hs : Started i s) (hcg : s.getGyrometerConfig = .ok cg) (hca : s.getAccelerometerConfig = .ok ca)
    (hcm : s.getMagnetometerConfig = .ok cm) (hr : AtRest i cg ca cm gx gy gz ax ay az mx my mz a m) (hn : norm3 a = n)
    (hc : c * n = a 0 * dir m 0 + a 1 * dir m 1 + a 2 * dir m 2)
    (hC : Closed ⟪i.alpha⟫ ⟪i.beta⟫ ⟪i.tAcc⟫ ⟪i.tMag⟫ n c δ ε h k E) (d0 : 0 ≤ δ₀) (d1 : δ₀ ≤ δ) (e0 : 0 ≤ ε₀) (e1 : ε₀ ≤ ε)
    (hA : ShowsF s fun f => NearUnit f ∧ Aligned (unitOf (qval f)) a (dir m) δ₀ ε₀) (j : ℕ) :
    ∃ s', ((fun s => (update (some gx) (some gy) (some gz) ax ay az mx my mz s).2)^[j]) s = s' ∧
      (update (some gx) (some gy) (some gz) ax ay az mx my mz s').1 = .ok () ∧
      ShowsF s' fun f => NearUnit f ∧ Aligned (unitOf (qval f)) a (dir m) δ ε ∧
        Aligned (unitOf (qval f)) a (dir m)
          (tiltRate ⟪i.alpha⟫ n ^ j * δ₀ + 201 / 100 * E / (1 - tiltRate ⟪i.alpha⟫ n))
          (headRate ⟪i.beta⟫ ^ j * ε₀ +
            (headRate ⟪i.beta⟫ * (2 * ⟪i.alpha⟫ * n * δ / h) + 201 / 100 * E / h) / (1 - headRate ⟪i.beta⟫)) := by
  obtain ⟨up, hup⟩ : ∃ up, up = fun s : Aqua F => (update (some gx) (some gy) (some gz) ax ay az mx my mz s).2 := ⟨_, rfl⟩
  obtain ⟨T, hT⟩ : ∃ T, T = tiltRate ⟪i.alpha⟫ n := ⟨_, rfl⟩
  obtain ⟨W, hW⟩ : ∃ W, W = headRate ⟪i.beta⟫ := ⟨_, rfl⟩
  have T0 : 0 ≤ T := hT ▸ Real.sqrt_nonneg _
  have W0 : 0 ≤ W := hW ▸ Real.sqrt_nonneg _
  have n0 : 0 < n := by have := hr.acc_norm.1; rw [hn] at this; exact lt_trans (by norm_num) this
  have k0 : 0 < k := lt_of_lt_of_le (by norm_num) hC.k_ge
  have hα := hr.settings i.alpha (by simp)
  have hβ := hr.settings i.beta (by simp)
  have E0 : 0 < E := by
    refine lt_of_lt_of_le ?_ hC.err
    have h1 : 0 ≤ accWeight ⟪i.alpha⟫ n := by
      have := mul_nonneg hα.2.1 (Real.sqrt_nonneg ((1 + n) / 2))
      exact div_nonneg this (by linarith [hα.2.2])
    have h2 : 0 ≤ ⟪i.beta⟫ / k := div_nonneg hβ.2.1 k0.le
    linarith
  obtain ⟨D, hD⟩ : ∃ D, D = 2 * ⟪i.alpha⟫ * n * δ / h := ⟨_, rfl⟩
  have D0 : 0 ≤ D := by rw [hD]; have := hC.δ_nonneg; have := hC.h_pos; have := hα.2.1; positivity
  obtain ⟨b, hb⟩ : ∃ b, b = 201 / 100 * E / h := ⟨_, rfl⟩
  have b0 : 0 < b := by rw [hb]; have := hC.h_pos; positivity
  have ht := hC.tilt
  have hh := hC.heading
  rw [← hT] at ht
  rw [← hW, ← hD, ← hb] at hh
  have T1 : T < 1 := by
    by_contra hcon
    have := mul_le_mul_of_nonneg_right (not_lt.mp hcon) hC.δ_nonneg
    linarith
  have W1 : W < 1 := by
    by_contra hcon
    have := mul_le_mul_of_nonneg_right (not_lt.mp hcon) (add_nonneg hC.ε_nonneg D0)
    linarith
  have key : ∀ j, Started i (up^[j] s) ∧ (up^[j] s).getGyrometerConfig = .ok cg ∧ (up^[j] s).getAccelerometerConfig = .ok ca ∧
      (up^[j] s).getMagnetometerConfig = .ok cm ∧ ∃ x y, 0 ≤ x ∧ x ≤ δ ∧ x ≤ T ^ j * δ₀ + 201 / 100 * E / (1 - T) ∧
        0 ≤ y ∧ y ≤ ε ∧ y ≤ W ^ j * ε₀ + (W * D + b) / (1 - W) ∧
        ShowsF (up^[j] s) fun f => NearUnit f ∧ Aligned (unitOf (qval f)) a (dir m) x y := by
    intro j
    induction j with
    | zero =>
      refine ⟨hs, hcg, hca, hcm, δ₀, ε₀, d0, d1, ?_, e0, e1, ?_, hA⟩
      · have : 0 ≤ 201 / 100 * E / (1 - T) := div_nonneg (by linarith) (by linarith)
        linarith
      · have : 0 ≤ (W * D + b) / (1 - W) := div_nonneg (by linarith [mul_nonneg W0 D0]) (by linarith)
        linarith
    | succ j ih =>
      obtain ⟨i1, i2, i3, i4, x, y, x0, x1, x2, y0, y1, y2, hS⟩ := ih
      rw [Function.iterate_succ_apply']
      generalize up^[j] s = u at *
      obtain ⟨s', eu, hS'⟩ := rest_step i1 i2 i3 i4 hr hn hc hC x0 x1 y0 y1 hS
      rw [← hT, ← hW, ← hD, ← hb] at hS'
      have eup : up u = s' := by rw [hup]; exact congrArg Prod.snd eu
      obtain ⟨hu, -⟩ := i1.ready
      have hstep : Step u s' := by
        have := frame_update (some gx) (some gy) (some gz) ax ay az mx my mz u
        rwa [eu] at this
      have hst : Started i s' := by
        obtain ⟨u0, u1, l0, l1, l2⟩ := i1
        have := l2.step (.update (some gx) (some gy) (some gz) ax ay az mx my mz)
        have e : (call (.update (some gx) (some gy) (some gz) ax ay az mx my mz) u).2 = s' := congrArg Prod.snd eu
        rw [e] at this
        exact ⟨u0, u1, l0, l1, this⟩
      rw [eup]
      refine ⟨hst, (hstep.gyr hu.gyr).2.2.trans i2, (hstep.acc hu.acc).2.2.trans i3, (hstep.mag hu.mag).2.2.trans i4,
        T * x + 201 / 100 * E, W * (y + D) + b, by linarith [mul_nonneg T0 x0], ?_, decay T0 T1 x2 le_rfl,
        by linarith [mul_nonneg W0 (add_nonneg y0 D0)], ?_, decay W0 W1 y2 (by linarith), hS'⟩
      · linarith [mul_le_mul_of_nonneg_left x1 T0]
      · linarith [mul_le_mul_of_nonneg_left y1 W0]
  obtain ⟨i1, i2, i3, i4, x, y, x0, x1, x2, y0, y1, y2, hS⟩ := key j
  obtain ⟨s', eu, -⟩ := rest_step i1 i2 i3 i4 hr hn hc hC x0 x1 y0 y1 hS
  obtain ⟨v, f, l1, l2, l3, l4, l5⟩ := hS
  rw [← hup, ← hT, ← hW, ← hD, ← hb]
  exact ⟨_, rfl, congrArg Prod.fst eu, v, f, l1, l2, l3, l4, l5.mono x0 x1 y0 y1, l5.mono x0 x2 y0 y2⟩

end

/-- The hypotheses of `C112_rest` hold for the acceleration (0, 0, -1) and the field (1596, 160, 1203), whose heading is
wrong by about a tenth of a radian: however many updates follow, they succeed and the heading error falls. -/
example : ∃ s : Aqua F32, Aqua.Started Aqua.margF s ∧ ∀ j : ℕ,
    ∃ s', ((fun s => (Aqua.update (some (lit 0)) (some (lit 0)) (some (lit 0)) (lit 0) (lit 0) (lit (-1)) (lit 1596) (lit 160)
        (lit 1203) s).2)^[j]) s = s' ∧
      (Aqua.update (some (lit 0)) (some (lit 0)) (some (lit 0)) (lit 0) (lit 0) (lit (-1)) (lit 1596) (lit 160)
        (lit 1203) s').1 = .ok () ∧
      ShowsF s' fun f => NearUnit f ∧ Aligned (unitOf (qval f)) ![0, 0, -1] (dir ![1596, 160, 1203]) (1 / 100)
        ((71 / 100) ^ j * (3 / 20) + 4 / 100) := by
  obtain ⟨s0, e0, -⟩ := Aqua.new_fresh (F := F32)
  have h := (C52_iff (a := Aqua.margF) e0).mpr
    ⟨fun _ => by decide +kernel, by decide +kernel, by decide +kernel, .inl ⟨rfl, rfl, rfl, rfl⟩⟩
  have hR : Aqua.Reachable s0 := ⟨s0, e0, .refl _⟩
  have hi : Aqua.init Aqua.margF s0 = (.ok (), (Aqua.init Aqua.margF s0).2) := Prod.ext h rfl
  have hs : Aqua.Started Aqua.margF (Aqua.init Aqua.margF s0).2 := ⟨s0, _, hR, hi, .refl _⟩
  obtain ⟨⟨v, hv, hv'⟩, hcg, hc, hd⟩ := C52_attitude hR hi
  obtain ⟨c', hc', hcg⟩ := hcg rfl
  obtain rfl := Option.some.inj hc'
  have hr := hs.ready.1
  generalize (Aqua.init Aqua.margF s0).2 = s at *
  have rg : Gyrometer.Reads (.default : GyrometerConfig F32) (lit 0) (lit 0) (lit 0) (lit 0) (lit 0) (lit 0) := by
    have e : Gyrometer.update (lit 0) (lit 0) (lit 0) s.gyr =
        (.ok (), (Gyrometer.update (lit 0) (lit 0) (lit 0) s.gyr).2) :=
      Prod.ext ((C43_gyr_iff hr.gyr hcg).mpr (by decide +kernel)) rfl
    obtain ⟨-, k1, k2, k3, -⟩ := C43_gyr_formula hr.gyr hcg e
    exact ⟨s.gyr, _, hr.gyr, hcg, e, k1.trans (by decide +kernel), k2.trans (by decide +kernel), k3.trans (by decide +kernel)⟩
  have ra : Accelerometer.Reads (.default : AccelerometerConfig F32) (lit 0) (lit 0) (lit (-1)) (lit 0) (lit 0)
      (lit (-1)) := by
    have e : Accelerometer.update (lit 0) (lit 0) (lit (-1)) s.acc =
        (.ok (), (Accelerometer.update (lit 0) (lit 0) (lit (-1)) s.acc).2) :=
      Prod.ext ((C43_acc_iff hr.acc hc).mpr (by decide +kernel)) rfl
    obtain ⟨-, k1, k2, k3, -⟩ := C43_acc_formula hr.acc hc e
    exact ⟨s.acc, _, hr.acc, hc, e, k1.trans (by decide +kernel), k2.trans (by decide +kernel), k3.trans (by decide +kernel)⟩
  have rm : Magnetometer.Reads (.default : MagnetometerConfig F32) (lit 1596) (lit 160) (lit 1203) (lit 1596) (lit 160)
      (lit 1203) := by
    have e : Magnetometer.update (lit 1596) (lit 160) (lit 1203) s.mag =
        (.ok (), (Magnetometer.update (lit 1596) (lit 160) (lit 1203) s.mag).2) :=
      Prod.ext ((C43_mag_iff hr.mag hd).mpr (by decide +kernel)) rfl
    obtain ⟨-, k1, k2, k3, -⟩ := C43_mag_formula hr.mag hd e
    exact ⟨s.mag, _, hr.mag, hd, e, k1.trans (by decide +kernel), k2.trans (by decide +kernel), k3.trans (by decide +kernel)⟩
  have l0 : ⟪(lit 0 : F32)⟫ = 0 := by rw [val_lit (by decide +kernel)]; norm_num
  have l1 : ⟪(lit 1 : F32)⟫ = 1 := by rw [val_lit (by decide +kernel)]; norm_num
  have l1' : ⟪(lit (-1) : F32)⟫ = -1 := by rw [val_lit (by decide +kernel)]; norm_num
  have l2 : ⟪(lit (1 / 2) : F32)⟫ = 1 / 2 := by rw [val_lit (by decide +kernel)]; norm_num
  have l3 : ⟪(lit 1596 : F32)⟫ = 1596 := by rw [val_lit (by decide +kernel)]; norm_num
  have l4 : ⟪(lit 160 : F32)⟫ = 160 := by rw [val_lit (by decide +kernel)]; norm_num
  have l5 : ⟪(lit 1203 : F32)⟫ = 1203 := by rw [val_lit (by decide +kernel)]; norm_num
  have lt : ⟪(Aqua.margF).ts⟫ = 1 / 128 := by
    show ⟪(lit (1 / 128) : F32)⟫ = _
    rw [val_lit (by decide +kernel)]; norm_num
  have la : ⟪(Aqua.margF).alpha⟫ = 1 / 2 := l2
  have lb : ⟪(Aqua.margF).beta⟫ = 1 / 2 := l2
  have lc : ⟪(Aqua.margF).tAcc⟫ = 7 / 8 := by
    show ⟪(lit (7 / 8) : F32)⟫ = _
    rw [val_lit (by decide +kernel)]; norm_num
  have ld : ⟪(Aqua.margF).tMag⟫ = 7 / 8 := lc
  obtain ⟨a, ha⟩ : ∃ a : Fin 3 → ℝ, a = ![0, 0, -1] := ⟨_, rfl⟩
  obtain ⟨m, hm⟩ : ∃ m : Fin 3 → ℝ, m = ![1596, 160, 1203] := ⟨_, rfl⟩
  have a0 : a 0 = 0 := by rw [ha]; rfl
  have a1 : a 1 = 0 := by rw [ha]; rfl
  have a2 : a 2 = -1 := by rw [ha]; rfl
  have na : norm3 a = 1 := by rw [norm3, a0, a1, a2]; norm_num
  have nm : norm3 m = 2005 := by
    rw [norm3, hm]
    show √((1596 : ℝ) ^ 2 + 160 ^ 2 + 1203 ^ 2) = 2005
    rw [show (1596 : ℝ) ^ 2 + 160 ^ 2 + 1203 ^ 2 = 2005 ^ 2 by norm_num, Real.sqrt_sq (by norm_num)]
  have dm : dir m = ![1596 / 2005, 160 / 2005, 3 / 5] := by
    funext k
    unfold dir
    rw [if_pos (by rw [nm]; norm_num [epsilon]), nm, hm]
    fin_cases k
    · rfl
    · rfl
    · show (1203 : ℝ) / 2005 = 3 / 5
      norm_num
  have m0 : dir m 0 = 1596 / 2005 := by rw [dm]; rfl
  have m1 : dir m 1 = 160 / 2005 := by rw [dm]; rfl
  have m2 : dir m 2 = 3 / 5 := by rw [dm]; rfl
  have hrest : AtRest Aqua.margF .default .default .default (lit 0) (lit 0) (lit 0) (lit 0) (lit 0) (lit (-1)) (lit 1596)
      (lit 160) (lit 1203) a m := by
    refine ⟨rfl, rfl, ?_, by rw [la]; norm_num, ⟨by decide +kernel, by rw [lt]; norm_num [abs_of_pos]⟩,
      ⟨_, _, _, rg, l0, l0, l0⟩, ⟨_, _, _, ra, by rw [ha, l0, l1']⟩, by rw [na]; norm_num, ⟨_, _, _, rm, by rw [hm, l3, l4, l5]⟩,
      by rw [nm]; norm_num⟩
    intro b hb
    simp only [List.mem_cons, List.not_mem_nil, or_false] at hb
    rcases hb with rfl | rfl | rfl | rfl
    · exact ⟨by decide +kernel, by rw [la]; norm_num⟩
    · exact ⟨by decide +kernel, by rw [lb]; norm_num⟩
    · exact ⟨by decide +kernel, by rw [lc]; norm_num⟩
    · exact ⟨by decide +kernel, by rw [ld]; norm_num⟩
  have hT : tiltRate (1 / 2) 1 ≤ 9 / 10 := by
    unfold tiltRate
    refine Real.sqrt_le_iff.mpr ⟨by norm_num, ?_⟩
    rw [max_self]
    norm_num
  have hW : headRate (1 / 2) ≤ 71 / 100 := Real.sqrt_le_iff.mpr ⟨by norm_num, by norm_num⟩
  have hw : accWeight (1 / 2) 1 = 1 / 2 := by
    unfold accWeight
    rw [show ((1 : ℝ) + 1) / 2 = 1 by norm_num, Real.sqrt_one]
    norm_num
  have hC : Closed ⟪(Aqua.margF).alpha⟫ ⟪(Aqua.margF).beta⟫ ⟪(Aqua.margF).tAcc⟫ ⟪(Aqua.margF).tMag⟫ 1 (-(3 / 5)) (1 / 100)
      (3 / 20) (39 / 50) (19 / 25) (32 / 10 ^ 5) := by
    rw [la, lb, lc, ld]
    refine ⟨⟨by norm_num, by norm_num, by norm_num, by norm_num, by norm_num [abs_of_pos], by norm_num, by norm_num, ?_, ?_, ?_,
      by norm_num⟩, ?_, ?_⟩
    · have : 9 / 10 ≤ √(((1 : ℝ) + (1 - (1 / 100) ^ 2 / 2) * 1) / 2) := Real.le_sqrt_of_sq_le (by norm_num)
      linarith
    · refine Real.le_sqrt_of_sq_le ?_
      norm_num
    · rw [hw]; norm_num
    · linarith
    · linarith
  have hA : ShowsF s fun f => NearUnit f ∧ Aligned (unitOf (qval f)) a (dir m) 0 (3 / 20) := by
    refine ⟨v, _, hv, hv', forall_lt_four.mpr ⟨?_, ?_, ?_, ?_⟩, ?_⟩
    · exact (by decide +kernel : Finite (lit 1 : F32))
    · exact (by decide +kernel : Finite (lit 0 : F32))
    · exact (by decide +kernel : Finite (lit 0 : F32))
    · exact (by decide +kernel : Finite (lit 0 : F32))
    · have e : qval (seq4 (lit 1 : F32) (lit 0) (lit 0) (lit 0)) = 1 := by
        show mkQ ⟪(lit 1 : F32)⟫ ⟪(lit 0 : F32)⟫ ⟪(lit 0 : F32)⟫ ⟪(lit 0 : F32)⟫ = 1
        rw [l0, l1]
        rfl
      have n1 : ‖(1 : Quaternion ℝ)‖ = 1 := norm_one (map_one _)
      have u1 : ∀ u : Fin 3 → ℝ, unrot 1 u = u := fun u =>
        pureQ_inj ((unrot_eq n1 u).trans (by simp))
      show |‖qval (seq4 (lit 1 : F32) (lit 0) (lit 0) (lit 0))‖ - 1| ≤ _ ∧
        Aligned (unitOf (qval (seq4 (lit 1 : F32) (lit 0) (lit 0) (lit 0)))) _ _ _ _
      rw [e, unitOf_unit n1]
      refine ⟨by rw [n1]; norm_num, ?_, ?_⟩
      · rw [u1, na, a2]; norm_num
      · have hh : hor (dir m) = 4 / 5 := by
          unfold hor
          rw [m0, m1, show (1596 / 2005 : ℝ) * (1596 / 2005) + 160 / 2005 * (160 / 2005) = (4 / 5) ^ 2 by norm_num,
            Real.sqrt_sq (by norm_num)]
        rw [u1, hh, m0]
        norm_num
  refine ⟨s, hs, fun j => ?_⟩
  obtain ⟨s', e1, e2, w, f, e3, e4, e5, e6, e7, e8⟩ := C112_rest hs hcg hc hd hrest na (c := -(3 / 5))
    (by rw [a0, a1, a2, m2]; norm_num) hC le_rfl (by norm_num) (by norm_num) le_rfl hA j
  rw [← ha, ← hm]
  refine ⟨s', e1, e2, w, f, e3, e4, e5, e6, e7.tilt, ?_⟩
  have W0 : 0 ≤ headRate (1 / 2) := Real.sqrt_nonneg _
  rw [la, lb] at e8
  refine (e8.mono (δ' := _) (ε' := (71 / 100) ^ j * (3 / 20) + 4 / 100) ?_ le_rfl ?_ ?_).heading
  · have h1 : 0 ≤ 1 - tiltRate (1 / 2) 1 := by linarith
    have := div_nonneg (show (0 : ℝ) ≤ 201 / 100 * (32 / 10 ^ 5) by norm_num) h1
    linarith
  · have h1 : 0 ≤ 1 - headRate (1 / 2) := by linarith
    have h2 : 0 ≤ headRate (1 / 2) * (2 * (1 / 2) * 1 * (1 / 100) / (39 / 50)) := mul_nonneg W0 (by norm_num)
    have := div_nonneg (add_nonneg h2 (show (0 : ℝ) ≤ 201 / 100 * (32 / 10 ^ 5) / (39 / 50) by norm_num)) h1
    have := pow_nonneg W0 j
    linarith
  · refine add_le_add (mul_le_mul_of_nonneg_right (pow_le_pow_left₀ W0 hW j) (by norm_num)) ?_
    rw [div_le_iff₀ (by linarith)]
    linarith

end Verif
