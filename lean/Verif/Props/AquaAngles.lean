import Verif.Props.ArAngles
import Verif.Props.RoundedMargMove
import Verif.Props.RoundedQuatInv

/-
AQUA: the distance of the attitude to the true one, and the Euler angles that are read from it (C125).
-/

set_option linter.unusedSectionVars false

namespace Verif
open Scalar Finset

namespace Aqua

/-! ### From a tilt and a heading to a distance -/

theorem turn_bound {a b S ε δ κ : ℝ} (a0 : 0 ≤ a) (b0 : 0 ≤ b) (d0 : 0 ≤ δ) (e0 : 0 ≤ ε) (hS : S ≤ 1 / 10) (hδ : δ ≤ S) (he : ε ≤ 1 / 4)
    (hκ : κ ≤ S - 975 / 1000 * δ) (h1 : 1 - δ ^ 2 / 4 ≤ a ^ 2 + b ^ 2) (h2 : -κ ≤ a ^ 2 - b ^ 2)
    (h3 : 2 * (a * b) ≤ ε * (1 + κ) + κ) (h4 : a ≤ 1) :
    2 * (1 - a) ≤ (54 / 100 * S + 59 / 100 * ε) ^ 2 := by
  have k1 : κ ≤ 1 / 10 := by linarith
  have k2 : ε * (1 + κ) ≤ 11 / 10 * ε := by nlinarith
  have dd : δ ^ 2 / 4 ≤ 25 / 10 ^ 4 := by nlinarith
  have p1 : (66 / 100) ^ 2 ≤ a ^ 2 := by norm_num at *; linarith
  have p2 : 66 / 100 ≤ a := (abs_le_of_sq_le_sq' p1 a0).2
  have p3 : b ≤ 285 / 1000 := by
    have : 2 * (66 / 100 * b) ≤ 2 * (a * b) := by gcongr
    norm_num at *
    linarith
  have p4 : (956 / 1000) ^ 2 ≤ a ^ 2 := by
    have : b ^ 2 ≤ (285 / 1000) ^ 2 := by gcongr
    norm_num at *
    linarith
  have p5 : 956 / 1000 ≤ a := (abs_le_of_sq_le_sq' p4 a0).2
  have p6 : 1912 / 1000 * b ≤ 11 / 10 * ε + κ := by
    have : 2 * (956 / 1000 * b) ≤ 2 * (a * b) := by gcongr
    norm_num at *
    linarith
  have q1 : 1956 / 1000 * (1 - a) ≤ 1 - a ^ 2 := by nlinarith
  have q2 : δ ^ 2 / 4 + b ^ 2 ≤ (δ / 2 + b) ^ 2 := by nlinarith [mul_nonneg d0 b0]
  have q3 : 1012 / 1000 * (δ / 2 + b) ≤ 54 / 100 * S + 59 / 100 * ε := by linarith
  have q4 := pow_le_pow_left₀ (by positivity) q3 2
  refine le_trans ?_ q4
  rw [mul_pow]
  norm_num at *
  linarith

/-- The horizontal part of a field after a turn. -/
theorem hor_small {R00 R10 R02 R12 h c δ m0 m1 H : ℝ} (h0 : 0 < h) (d0 : 0 ≤ δ) (hA : R00 ^ 2 + R10 ^ 2 ≤ 1)
    (hB : R02 ^ 2 + R12 ^ 2 ≤ δ ^ 2) (hm0 : m0 = R00 * h + R02 * c) (hm1 : m1 = R10 * h + R12 * c)
    (hH : H ^ 2 = m0 ^ 2 + m1 ^ 2) : H ≤ h + δ * |c| := by
  have hD : |R00 * R02 + R10 * R12| ≤ δ := by
    refine abs_le_of_sq_le_sq ?_ d0
    have e : (R00 * R02 + R10 * R12) ^ 2 + (R00 * R12 - R10 * R02) ^ 2 = (R00 ^ 2 + R10 ^ 2) * (R02 ^ 2 + R12 ^ 2) := by ring
    have p : (R00 ^ 2 + R10 ^ 2) * (R02 ^ 2 + R12 ^ 2) ≤ 1 * (R02 ^ 2 + R12 ^ 2) :=
      mul_le_mul_of_nonneg_right hA (by positivity)
    have := sq_nonneg (R00 * R12 - R10 * R02)
    linarith
  have hDc : |(R00 * R02 + R10 * R12) * c| ≤ δ * |c| := by
    rw [abs_mul]; exact mul_le_mul_of_nonneg_right hD (abs_nonneg _)
  have e : H ^ 2 = (R00 ^ 2 + R10 ^ 2) * h ^ 2 + 2 * h * ((R00 * R02 + R10 * R12) * c) + (R02 ^ 2 + R12 ^ 2) * c ^ 2 := by
    rw [hH, hm0, hm1]; ring
  have p1 : (R00 ^ 2 + R10 ^ 2) * h ^ 2 ≤ 1 * h ^ 2 := mul_le_mul_of_nonneg_right hA (sq_nonneg h)
  have p2 : 2 * h * ((R00 * R02 + R10 * R12) * c) ≤ 2 * h * (δ * |c|) :=
    mul_le_mul_of_nonneg_left ((le_abs_self _).trans hDc) (by positivity)
  have p3 : (R02 ^ 2 + R12 ^ 2) * c ^ 2 ≤ δ ^ 2 * c ^ 2 := mul_le_mul_of_nonneg_right hB (sq_nonneg c)
  have p4 : (h + δ * |c|) ^ 2 = h ^ 2 + 2 * h * (δ * |c|) + δ ^ 2 * c ^ 2 := by
    rw [← sq_abs c]; ring
  refine (abs_le_of_sq_le_sq' ?_ (by positivity)).2
  rw [e, p4]
  linarith

/-- The field seen after a turn, when its heading is nearly right. -/
theorem field_small {H h δ ε m0 m1 : ℝ} {c : ℝ} (H0 : 0 ≤ H) (e0 : 0 ≤ ε) (he : ε ≤ 1 / 4) (hHle : H ≤ h + δ * |c|)
    (hH : H ^ 2 = m0 ^ 2 + m1 ^ 2) (hh : H - m0 ≤ ε ^ 2 / 2 * H) : 0 ≤ m0 ∧ |m1| ≤ ε * (h + δ * |c|) := by
  have e1 : 0 ≤ 1 - ε ^ 2 / 2 := by nlinarith
  have m0pos : (1 - ε ^ 2 / 2) * H ≤ m0 := by linarith
  refine ⟨le_trans (mul_nonneg e1 H0) m0pos, le_trans ?_ (mul_le_mul_of_nonneg_left hHle e0)⟩
  refine abs_le_of_sq_le_sq ?_ (by positivity)
  have p := pow_le_pow_left₀ (mul_nonneg e1 H0) m0pos 2
  have e : ((1 - ε ^ 2 / 2) * H) ^ 2 = H ^ 2 - ε ^ 2 * H ^ 2 + (ε ^ 2 / 2 * H) ^ 2 := by ring
  have := sq_nonneg (ε ^ 2 / 2 * H)
  have e2 : (ε * H) ^ 2 = ε ^ 2 * H ^ 2 := by ring
  rw [e2]
  linarith

/-- The product of the first and the last component of the turn. -/
theorem twist_small {w x y z h c δ ε m1 R12 : ℝ} (h0 : 0 < h) (e0 : 0 ≤ ε) (hm1' : |m1| ≤ ε * (h + δ * |c|))
    (c12 : |R12 * c| ≤ δ * |c|) (hx : |2 * (x * y)| ≤ δ ^ 2 / 4) (hm1 : m1 = 2 * (x * y + w * z) * h + R12 * c) :
    2 * (|w| * |z|) ≤ ε * (1 + (δ * (|c| / h) + δ ^ 2 / 4)) + (δ * (|c| / h) + δ ^ 2 / 4) := by
  rw [← abs_mul]
  have e : 2 * (w * z) * h = m1 - R12 * c - 2 * (x * y) * h := by rw [hm1]; ring
  have p : |2 * (w * z) * h| ≤ ε * (h + δ * |c|) + δ * |c| + δ ^ 2 / 4 * h := by
    rw [e]
    refine (abs_sub _ _).trans (add_le_add ((abs_sub _ _).trans (add_le_add hm1' c12)) ?_)
    rw [abs_mul, abs_of_pos h0]
    exact mul_le_mul_of_nonneg_right hx h0.le
  rw [abs_mul, abs_of_pos h0, abs_mul, abs_two] at p
  have p2 : 2 * |w * z| ≤ (ε * (h + δ * |c|) + δ * |c| + δ ^ 2 / 4 * h) / h := by rwa [le_div_iff₀ h0]
  have e2 : (ε * (h + δ * |c|) + δ * |c| + δ ^ 2 / 4 * h) / h = ε * (1 + δ * (|c| / h)) + (δ * (|c| / h) + δ ^ 2 / 4) := by
    field_simp
    ring
  rw [e2] at p2
  refine p2.trans ?_
  have : 0 ≤ ε * (δ ^ 2 / 4) := by positivity
  linarith

/-- The components of the turn from the true frame to the estimated one. `R` is its matrix: `R02` and `R12` are the
horizontal part of the true vertical, and the field is `(h, 0, c)` in the true frame. -/
theorem turn_small {w x y z h c δ ε H : ℝ} (hu : w ^ 2 + x ^ 2 + y ^ 2 + z ^ 2 = 1) (h0 : 0 < h) (d0 : 0 ≤ δ) (e0 : 0 ≤ ε)
    (hS : δ * (1 + |c| / h) ≤ 1 / 10) (he : ε ≤ 1 / 4) (ht : 4 * (x ^ 2 + y ^ 2) ≤ δ ^ 2) (H0 : 0 ≤ H)
    {m0 m1 : ℝ} (hm0 : m0 = (w ^ 2 + x ^ 2 - y ^ 2 - z ^ 2) * h + 2 * (x * z + w * y) * c)
    (hm1 : m1 = 2 * (x * y + w * z) * h + 2 * (y * z - w * x) * c) (hH : H ^ 2 = m0 ^ 2 + m1 ^ 2)
    (hh : H - m0 ≤ ε ^ 2 / 2 * H) : 2 * (1 - |w|) ≤ (54 / 100 * (δ * (1 + |c| / h)) + 59 / 100 * ε) ^ 2 := by
  have hch : 0 ≤ |c| / h := by positivity
  have hcd : 0 ≤ δ * (|c| / h) := by positivity
  have eS : δ * (1 + |c| / h) = δ + δ * (|c| / h) := by ring
  have hd : δ ≤ 1 / 10 := by linarith
  obtain ⟨R02, r02⟩ : ∃ r, r = 2 * (x * z + w * y) := ⟨_, rfl⟩
  obtain ⟨R12, r12⟩ : ∃ r, r = 2 * (y * z - w * x) := ⟨_, rfl⟩
  obtain ⟨R00, r00⟩ : ∃ r, r = w ^ 2 + x ^ 2 - y ^ 2 - z ^ 2 := ⟨_, rfl⟩
  obtain ⟨R10, r10⟩ : ∃ r, r = 2 * (x * y + w * z) := ⟨_, rfl⟩
  rw [← r00, ← r02] at hm0
  rw [← r10, ← r12] at hm1
  have hB : R02 ^ 2 + R12 ^ 2 ≤ δ ^ 2 := by
    have e : R02 ^ 2 + R12 ^ 2 = 4 * (x ^ 2 + y ^ 2) * (z ^ 2 + w ^ 2) := by rw [r02, r12]; ring
    rw [e]
    have : z ^ 2 + w ^ 2 ≤ 1 := by linarith [sq_nonneg x, sq_nonneg y]
    have p := mul_le_mul_of_nonneg_left this (show 0 ≤ 4 * (x ^ 2 + y ^ 2) by positivity)
    linarith
  have hA : R00 ^ 2 + R10 ^ 2 ≤ 1 := by
    have e : R00 ^ 2 + R10 ^ 2 + (2 * (x * z - w * y)) ^ 2 = (w ^ 2 + x ^ 2 + y ^ 2 + z ^ 2) ^ 2 := by rw [r00, r10]; ring
    rw [hu] at e
    linarith [sq_nonneg (2 * (x * z - w * y))]
  have b02 : |R02| ≤ δ := abs_le_of_sq_le_sq (by linarith [sq_nonneg R12]) d0
  have b12 : |R12| ≤ δ := abs_le_of_sq_le_sq (by linarith [sq_nonneg R02]) d0
  have c02 : |R02 * c| ≤ δ * |c| := by rw [abs_mul]; gcongr
  have c12 : |R12 * c| ≤ δ * |c| := by rw [abs_mul]; gcongr
  -- the horizontal part of the field
  have hHle : H ≤ h + δ * |c| := hor_small h0 d0 hA hB hm0 hm1 hH
  obtain ⟨hm0', hm1'⟩ := field_small H0 e0 he hHle hH hh
  have hx : |2 * (x * y)| ≤ δ ^ 2 / 4 := by
    rw [abs_le]
    constructor
    · linarith [sq_nonneg (x + y)]
    · linarith [sq_nonneg (x - y)]
  have k0 : δ ^ 2 / 4 ≤ 25 / 1000 * δ := by
    have := mul_le_mul_of_nonneg_right hd d0
    rw [sq]
    linarith
  have x0 := sq_nonneg x
  have y0 := sq_nonneg y
  have z0 := sq_nonneg z
  refine turn_bound (b := |z|) (κ := δ * (|c| / h) + δ ^ 2 / 4) (abs_nonneg _) (abs_nonneg _) d0 e0 hS
    (by linarith) he (by linarith) ?_ ?_ (twist_small h0 e0 hm1' c12 hx (by rw [hm1, r10])) ?_
  · rw [sq_abs, sq_abs]; linarith
  · rw [sq_abs, sq_abs]
    have p : -(δ * |c|) ≤ R00 * h := by
      have := (abs_le.mp c02).2
      linarith
    have p2 : -(δ * (|c| / h)) ≤ R00 := by
      rw [← mul_div_assoc, ← neg_div, div_le_iff₀ h0]
      exact p
    have : w ^ 2 - z ^ 2 = R00 - x ^ 2 + y ^ 2 := by rw [r00]; ring
    linarith
  · rw [← sq_le_one_iff_abs_le_one]; linarith

/-- A vector without second coordinate, turned. -/
theorem turned_plane (W : Quaternion ℝ) (h c : ℝ) :
    (W * mkQ 0 h 0 c * star W).imI = (W.re ^ 2 + W.imI ^ 2 - W.imJ ^ 2 - W.imK ^ 2) * h + 2 * (W.imI * W.imK + W.re * W.imJ) * c ∧
    (W * mkQ 0 h 0 c * star W).imJ = 2 * (W.imI * W.imJ + W.re * W.imK) * h + 2 * (W.imJ * W.imK - W.re * W.imI) * c ∧
    (W * mkQ 0 h 0 c * star W).imK = 2 * (W.imI * W.imK - W.re * W.imJ) * h +
      (W.re ^ 2 - W.imI ^ 2 - W.imJ ^ 2 + W.imK ^ 2) * c := by
  have k0 : (mkQ 0 h 0 c).re = 0 := rfl
  have k1 : (mkQ 0 h 0 c).imI = h := rfl
  have k2 : (mkQ 0 h 0 c).imJ = 0 := rfl
  have k3 : (mkQ 0 h 0 c).imK = c := rfl
  simp only [Quaternion.re_mul, Quaternion.imI_mul, Quaternion.imJ_mul, Quaternion.imK_mul, Quaternion.re_star,
      Quaternion.imI_star, Quaternion.imJ_star, Quaternion.imK_star, k0, k1, k2, k3]
  refine ⟨?_, ?_, ?_⟩ <;> ring

/-- C125: a frame `U` of AQUA that is aligned with the vertical `g` up to `δ` and with the field `b` up to `ε` is near the
inverse of the true attitude `Q`, which turns `g` into `(0, 0, -1)` and `b` into `(h, 0, c)`: up to the sign, which does
not matter for an attitude, the distance is at most `0.54 δ (1 + |c| / h) + 0.59 ε`. -/
theorem C125_attitude {U Q : Quaternion ℝ} (hU : ‖U‖ = 1) (hQ : ‖Q‖ = 1) {g b : Fin 3 → ℝ} {h c δ ε : ℝ}
    (hg : Q * mkQ 0 (g 0) (g 1) (g 2) * star Q = mkQ 0 0 0 (-1)) (hb : Q * mkQ 0 (b 0) (b 1) (b 2) * star Q = mkQ 0 h 0 c)
    (h0 : 0 < h) (d0 : 0 ≤ δ) (e0 : 0 ≤ ε) (hS : δ * (1 + |c| / h) ≤ 1 / 10) (he : ε ≤ 1 / 4) (hA : Aligned U g b δ ε) :
    ‖star U - Q‖ ≤ 54 / 100 * (δ * (1 + |c| / h)) + 59 / 100 * ε ∨ ‖star U + Q‖ ≤ 54 / 100 * (δ * (1 + |c| / h)) + 59 / 100 * ε := by
  have hQQ : star Q * Q = 1 := by
    rw [Quaternion.star_mul_self, Quaternion.normSq_eq_norm_mul_self, hQ]; simp
  have hQQ' : Q * star Q = 1 := by
    rw [Quaternion.self_mul_star, Quaternion.normSq_eq_norm_mul_self, hQ]; simp
  obtain ⟨W, hW⟩ : ∃ W, W = star U * star Q := ⟨_, rfl⟩
  have hW1 : ‖W‖ = 1 := by rw [hW, norm_mul, norm_star, norm_star, hU, hQ, one_mul]
  have hWs : W.re ^ 2 + W.imI ^ 2 + W.imJ ^ 2 + W.imK ^ 2 = 1 := by
    have := Quaternion.normSq_eq_norm_mul_self W
    rw [hW1, Quaternion.normSq_def'] at this
    linarith
  have key : ∀ v : Fin 3 → ℝ, pureQ (unrot U v) = W * (Q * mkQ 0 (v 0) (v 1) (v 2) * star Q) * star W := by
    intro v
    rw [unrot_eq hU, hW, star_mul, star_star, star_star]
    have e : star U * star Q * (Q * mkQ 0 (v 0) (v 1) (v 2) * star Q) * (Q * U) =
        star U * (star Q * Q) * mkQ 0 (v 0) (v 1) (v 2) * (star Q * Q) * U := by noncomm_ring
    rw [e, hQQ, mul_one, mul_one]
    rfl
  have ng : norm3 g = 1 := by
    have := congrArg norm hg
    rw [norm_mul, norm_mul, norm_star, hQ, norm_mkQ, norm_mkQ] at this
    unfold norm3
    rw [one_mul, mul_one] at this
    convert this using 2
    · ring
    · norm_num
  have kg := key g
  have kb := key b
  rw [hg] at kg
  rw [hb] at kb
  obtain ⟨-, -, g2⟩ := turned_plane W 0 (-1)
  obtain ⟨b0, b1, -⟩ := turned_plane W h c
  have e2 : unrot U g 2 = _ := (congrArg (fun q : Quaternion ℝ => q.imK) kg).trans g2
  have e3 : unrot U b 0 = _ := (congrArg (fun q : Quaternion ℝ => q.imI) kb).trans b0
  have e4 : unrot U b 1 = _ := (congrArg (fun q : Quaternion ℝ => q.imJ) kb).trans b1
  obtain ⟨ht, hh⟩ := hA
  rw [ng, e2] at ht
  have hs := turn_small hWs h0 d0 e0 hS he (by linarith) (Real.sqrt_nonneg _) e3 e4 (H := hor (unrot U b))
    (by unfold hor; rw [Real.sq_sqrt (add_nonneg (mul_self_nonneg _) (mul_self_nonneg _))]; ring) hh
  obtain ⟨D, hD⟩ : ∃ D, D = 54 / 100 * (δ * (1 + |c| / h)) + 59 / 100 * ε := ⟨_, rfl⟩
  have D0 : 0 ≤ D := by rw [hD]; positivity
  rw [← hD] at hs ⊢
  clear kg kb e2 e3 e4 b0 b1 g2 ht hh key hg hb hS
  have nm : ∀ q : Quaternion ℝ, ‖q * star Q‖ = ‖q‖ := fun q => by rw [norm_mul, norm_star, hQ, mul_one]
  have sq : ∀ q : Quaternion ℝ, ‖q‖ ^ 2 = q.re ^ 2 + q.imI ^ 2 + q.imJ ^ 2 + q.imK ^ 2 := fun q => by
    rw [sq, ← Quaternion.normSq_eq_norm_mul_self, Quaternion.normSq_def']
  rcases abs_cases W.re with ⟨hw, -⟩ | ⟨hw, -⟩
  · left
    rw [← nm, sub_mul, hQQ', ← hW]
    refine abs_le_of_sq_le_sq' ?_ D0 |>.2
    rw [sq]
    simp only [Quaternion.re_sub, Quaternion.imI_sub, Quaternion.imJ_sub, Quaternion.imK_sub, Quaternion.re_one,
      Quaternion.imI_one, Quaternion.imJ_one, Quaternion.imK_one]
    rw [hw] at hs
    linarith
  · right
    rw [← nm, add_mul, hQQ', ← hW]
    refine abs_le_of_sq_le_sq' ?_ D0 |>.2
    rw [sq]
    simp only [Quaternion.re_add, Quaternion.imI_add, Quaternion.imJ_add, Quaternion.imK_add, Quaternion.re_one,
      Quaternion.imI_one, Quaternion.imJ_one, Quaternion.imK_one]
    rw [hw] at hs
    linarith

theorem dcmOf_neg (q : Quaternion ℝ) : dcmOf (-q) = dcmOf q := by
  simp [dcmOf]

section
variable {F : Type} [Scalar F] [Rounded F]

/-- C125: the roll, pitch and yaw read from an AQUA filter, in binary32. Its attitude turns the reference frame into that of
the sensor, so it is conjugated first. -/
theorem C125_angles [Arcs F] {s : Aqua F} {Q : Quaternion ℝ} (hQ : ‖Q‖ = 1) {g b : Fin 3 → ℝ} {h c δ ε : ℝ}
    (hg : Q * mkQ 0 (g 0) (g 1) (g 2) * star Q = mkQ 0 0 0 (-1)) (hb : Q * mkQ 0 (b 0) (b 1) (b 2) * star Q = mkQ 0 h 0 c)
    (h0 : 0 < h) (d0 : 0 ≤ δ) (e0 : 0 ≤ ε) (hS : δ * (1 + |c| / h) ≤ 1 / 10) (he : ε ≤ 1 / 4)
    (hA : ShowsF s fun f => NearUnit f ∧ Aligned (unitOf (qval f)) g b δ ε) {phi theta psi D : ℝ}
    (e : toMatrix 3 3 (dcmOf Q) = rotZ psi * rotY theta * rotX phi) (ht : |theta| ≤ Real.pi / 2)
    (hD : 54 / 100 * (δ * (1 + |c| / h)) + 59 / 100 * ε + 1 / 10 ^ 6 ≤ D)
    (hD' : D ≤ 3 / 25) (hs : |Real.sin theta| + 2 * D ≤ 99998 / 100000) :
    ∃ v w, getAttitude s = .ok v ∧ Quat.conjugateNew v = .ok w ∧ EulerNear w phi theta psi D := by
  obtain ⟨v, f, k1, k2, k3, k4, k5⟩ := hA
  obtain ⟨w, f', -, c1, c2, c3, c4⟩ := C118_conjugate k2 k3
  refine ⟨v, w, k1, c1, ?_⟩
  have hn : |‖qval f‖ - 1| ≤ 1 / 10 ^ 6 := k4
  have n0 : 1 / 2 < ‖qval f‖ := by have := (abs_le.mp hn).1; norm_num at this; linarith
  have n1 : 0 < ‖qval f‖ := by linarith
  have hU : unitOf (qval f) = ‖qval f‖⁻¹ • qval f := by
    unfold unitOf
    rw [if_pos (lt_trans (by norm_num [epsilon]) n0)]
  have hU1 : ‖unitOf (qval f)‖ = 1 := by rw [hU, norm_smul, norm_inv, norm_norm, inv_mul_cancel₀ n1.ne']
  have hd : ‖star (qval f) - star (unitOf (qval f))‖ ≤ 1 / 10 ^ 6 := by
    rw [← star_sub, norm_star]
    have e1 : qval f - unitOf (qval f) = (‖qval f‖ - 1) • unitOf (qval f) := by
      rw [sub_smul, one_smul, hU, smul_inv_smul₀ n1.ne']
    rw [e1, norm_smul, hU1, mul_one]
    exact hn
  have hn' : NearUnit f' := by
    unfold NearUnit
    rw [c4, norm_star]
    exact hn
  rcases C125_attitude hU1 hQ hg hb h0 d0 e0 hS he k5 with near | near
  · refine C124_angles c2 c3 hn' hQ ?_ e ht hD' hs
    rw [c4]
    have := norm_sub_le_norm_sub_add_norm_sub (star (qval f)) (star (unitOf (qval f))) Q
    linarith
  · refine C124_angles c2 c3 hn' (Q := -Q) (by rwa [norm_neg]) ?_ (by rwa [dcmOf_neg]) ht hD' hs
    rw [c4]
    have := norm_sub_le_norm_sub_add_norm_sub (star (qval f)) (star (unitOf (qval f))) (-Q)
    rw [sub_neg_eq_add (star (unitOf (qval f)))] at this
    linarith

/-- C125: the roll, pitch and yaw when the filter is aligned, as C120 says for every number of updates, with an acceleration
`a` and a field `m` that were read, which differ in direction by `ν` and `μ` from the true vertical `g` and the true field
`b`. -/
theorem C125_noisy [Arcs F] {s : Aqua F} {Q : Quaternion ℝ} (hQ : ‖Q‖ = 1) {a m g b : Fin 3 → ℝ} {h c k l δ ε ν μ : ℝ}
    (hg : Q * mkQ 0 (g 0) (g 1) (g 2) * star Q = mkQ 0 0 0 (-1)) (hb : Q * mkQ 0 (b 0) (b 1) (b 2) * star Q = mkQ 0 h 0 c)
    (h0 : 0 < h) (h1 : h ^ 2 + c ^ 2 = 1) (ha : epsilon ℝ < norm3 a) (hm : epsilon ℝ < norm3 m)
    (hν : norm3 (g - dir a) ≤ ν) (hμ : norm3 (b - dir m) ≤ μ) (l0 : 0 < l) (d0 : 0 ≤ δ) (e0 : 0 ≤ ε)
    (hk : k * norm3 a = a 0 * dir m 0 + a 1 * dir m 1 + a 2 * dir m 2) (hl : l ^ 2 + (|k| + δ) ^ 2 ≤ 1)
    (hl' : l ^ 2 + (|c| + (δ + ν)) ^ 2 ≤ 1) (hS : (δ + ν) * (1 + |c| / h) ≤ 1 / 10) (he : ε + μ / l ≤ 1 / 4)
    (hA : ShowsF s fun f => NearUnit f ∧ Aligned (unitOf (qval f)) a (dir m) δ ε) {phi theta psi D : ℝ}
    (e : toMatrix 3 3 (dcmOf Q) = rotZ psi * rotY theta * rotX phi) (ht : |theta| ≤ Real.pi / 2)
    (hD : 54 / 100 * ((δ + ν) * (1 + |c| / h)) + 59 / 100 * (ε + μ / l) + 1 / 10 ^ 6 ≤ D)
    (hD' : D ≤ 3 / 25) (hs : |Real.sin theta| + 2 * D ≤ 99998 / 100000) :
    ∃ v w, getAttitude s = .ok v ∧ Quat.conjugateNew v = .ok w ∧ EulerNear w phi theta psi D := by
  have ν0 : 0 ≤ ν := (norm3_nonneg _).trans hν
  have μ0 : 0 ≤ μ / l := div_nonneg ((norm3_nonneg _).trans hμ) l0.le
  have hP : ‖star Q‖ = 1 := by rwa [norm_star]
  have seen : ∀ (v : Fin 3 → ℝ) {x y z : ℝ}, Q * mkQ 0 (v 0) (v 1) (v 2) * star Q = mkQ 0 x y z →
      unrot (star Q) v 0 = x ∧ unrot (star Q) v 1 = y ∧ unrot (star Q) v 2 = z := by
    intro v x y z hv
    have := unrot_eq hP v
    rw [star_star, show pureQ v = mkQ 0 (v 0) (v 1) (v 2) from rfl, hv] at this
    exact ⟨congrArg (fun q : Quaternion ℝ => q.imI) this, congrArg (fun q : Quaternion ℝ => q.imJ) this,
      congrArg (fun q : Quaternion ℝ => q.imK) this⟩
  obtain ⟨g0, g1, g2⟩ := seen g hg
  obtain ⟨b0, b1, b2⟩ := seen b hb
  have ng : norm3 g = 1 := by
    rw [← unrot_norm (normSq_of_norm hP), norm3, g0, g1, g2]
    norm_num
  have nb : norm3 b = 1 := by
    rw [← unrot_norm (normSq_of_norm hP), norm3, b0, b1, b2, show h ^ 2 + 0 ^ 2 + c ^ 2 = 1 by linarith, Real.sqrt_one]
  have hc : -c = g 0 * b 0 + g 1 * b 1 + g 2 * b 2 := by
    rw [← unrot_dot hP g b, g0, g1, g2, b0, b1, b2]
    ring
  obtain ⟨v, f, k1, k2, k3, k4, k5⟩ := hA
  have n0 : epsilon ℝ < ‖qval f‖ := by
    have hn : |‖qval f‖ - 1| ≤ 1 / 10 ^ 6 := k4
    have := (abs_le.mp hn).1
    norm_num [epsilon] at this ⊢
    linarith
  have hU1 : ‖unitOf (qval f)‖ = 1 := by
    unfold unitOf
    rw [if_pos n0, norm_smul, norm_inv, norm_norm, inv_mul_cancel₀ (lt_trans (by norm_num [epsilon]) n0).ne']
  refine C125_angles hQ hg hb h0 (by linarith) (by linarith) hS he (δ := δ + ν) (ε := ε + μ / l) ⟨v, f, k1, k2, k3, k4, ?_⟩ e ht hD hD' hs
  exact C120_truth hU1 ha hm ng nb hν hμ l0 d0 e0 hk hl hc (by rwa [abs_neg]) k5

end

/-! ### A case -/

/-- The arguments of `Aqua.margF`. -/
noncomputable def margE : AquaInit F32E := (margF : AquaInit F32)

/-- The direction of a field whose horizontal part deviates by the angle `2 arctan (1 / 20)`. -/
noncomputable def offField : Fin 3 → ℝ := ![1596 / 2005, 160 / 2005, 1203 / 2005]

/-- A turn about the third axis. -/
theorem yaw_turn (a b p q r : ℝ) : mkQ a 0 0 b * mkQ 0 p q r * star (mkQ a 0 0 b) =
    mkQ 0 ((a ^ 2 - b ^ 2) * p - 2 * (a * b) * q) (2 * (a * b) * p + (a ^ 2 - b ^ 2) * q) ((a ^ 2 + b ^ 2) * r) := by
  have k0 : (mkQ a 0 0 b).re = a ∧ (mkQ a 0 0 b).imI = 0 ∧ (mkQ a 0 0 b).imJ = 0 ∧ (mkQ a 0 0 b).imK = b := ⟨rfl, rfl, rfl, rfl⟩
  have k1 : (mkQ 0 p q r).re = 0 ∧ (mkQ 0 p q r).imI = p ∧ (mkQ 0 p q r).imJ = q ∧ (mkQ 0 p q r).imK = r := ⟨rfl, rfl, rfl, rfl⟩
  obtain ⟨a0, a1, a2, a3⟩ := k0
  obtain ⟨b0, b1, b2, b3⟩ := k1
  have mk : ∀ {u v : Quaternion ℝ}, u.re = v.re → u.imI = v.imI → u.imJ = v.imJ → u.imK = v.imK → u = v :=
    fun h1 h2 h3 h4 => Quaternion.ext _ _ h1 h2 h3 h4
  refine mk ?_ ?_ ?_ ?_ <;>
    simp only [Quaternion.re_mul, Quaternion.imI_mul, Quaternion.imJ_mul, Quaternion.imK_mul, Quaternion.re_star,
      Quaternion.imI_star, Quaternion.imJ_star, Quaternion.imK_star, a0, a1, a2, a3, b0, b1, b2, b3]
  · show _ = (0 : ℝ); ring
  · show _ = (a ^ 2 - b ^ 2) * p - 2 * (a * b) * q; ring
  · show _ = 2 * (a * b) * p + (a ^ 2 - b ^ 2) * q; ring
  · show _ = (a ^ 2 + b ^ 2) * r; ring

theorem offField_sq : (20 / √401) ^ 2 = (400 / 401 : ℝ) ∧ (-1 / √401) ^ 2 = (1 / 401 : ℝ) ∧ 20 / √401 * (-1 / √401) = (-20 / 401 : ℝ) := by
  have h : √401 ^ 2 = (401 : ℝ) := Real.sq_sqrt (by norm_num)
  refine ⟨?_, ?_, ?_⟩
  · rw [div_pow, h]; norm_num
  · rw [div_pow, h]; norm_num
  · rw [div_mul_div_comm, ← sq, h]; norm_num

theorem offField_turn : mkQ (20 / √401) 0 0 (-1 / √401) * mkQ 0 (offField 0) (offField 1) (offField 2) * star (mkQ (20 / √401) 0 0 (-1 / √401)) =
    mkQ 0 (4 / 5) 0 (3 / 5) := by
  obtain ⟨h1, h2, h3⟩ := offField_sq
  rw [yaw_turn, h1, h2, h3, show offField 0 = 1596 / 2005 from rfl, show offField 1 = 160 / 2005 from rfl, show offField 2 = 1203 / 2005 from rfl]
  norm_num

/-- A filter that has been initialised with the identity is aligned with that field up to 1/10. -/
theorem margE_started : ∃ s : Aqua F32E, Started margE s ∧
    ShowsF s fun f => NearUnit f ∧ Aligned (unitOf (qval f)) ![0, 0, -1] offField 0 (1 / 10) := by
  obtain ⟨s0, e0, -⟩ := Aqua.new_fresh (F := F32E)
  have h := (C52_iff (a := margE) e0).mpr (by
    have k : AquaInit.Valid (F := F32) margF :=
      ⟨fun _ => by decide +kernel, by decide +kernel, by decide +kernel, .inl ⟨rfl, rfl, rfl, rfl⟩⟩
    exact ⟨k.gyr, k.acc, k.mag, k.quat⟩)
  have hR : Aqua.Reachable s0 := ⟨s0, e0, .refl _⟩
  have hi : Aqua.init margE s0 = (.ok (), (Aqua.init margE s0).2) := Prod.ext h rfl
  have hs : Aqua.Started margE (Aqua.init margE s0).2 := ⟨s0, _, hR, hi, .refl _⟩
  obtain ⟨⟨v, hv, hv'⟩, -⟩ := C52_attitude hR hi
  generalize (Aqua.init margE s0).2 = s at *
  have n1 : ‖(1 : Quaternion ℝ)‖ = 1 := norm_one (map_one _)
  have u1 : ∀ u : Fin 3 → ℝ, unrot 1 u = u := fun u => pureQ_inj ((unrot_eq n1 u).trans (by simp))
  refine ⟨s, hs, ?_⟩
  · refine ⟨v, _, hv, hv', forall_lt_four.mpr ⟨Rounded.one_finite, Rounded.zero_finite, Rounded.zero_finite, Rounded.zero_finite⟩, ?_⟩
    have e : qval (seq4 (lit 1 : F32E) (lit 0) (lit 0) (lit 0)) = 1 := by
      show mkQ ⟪(lit 1 : F32E)⟫ ⟪(lit 0 : F32E)⟫ ⟪(lit 0 : F32E)⟫ ⟪(lit 0 : F32E)⟫ = 1
      rw [Rounded.one_val, Rounded.zero_val]
      rfl
    show |‖qval (seq4 (lit 1 : F32E) (lit 0) (lit 0) (lit 0))‖ - 1| ≤ _ ∧
      Aligned (unitOf (qval (seq4 (lit 1 : F32E) (lit 0) (lit 0) (lit 0)))) _ _ _ _
    rw [e, unitOf_unit n1]
    refine ⟨by rw [n1]; norm_num, ?_, ?_⟩
    · rw [u1]
      have : norm3 ![0, 0, -1] = 1 := by
        show √((0 : ℝ) ^ 2 + 0 ^ 2 + (-1) ^ 2) = 1
        norm_num
      rw [this]
      show (1 : ℝ) + -1 ≤ _
      norm_num
    · have hh : hor offField = 4 / 5 := by
        show √(1596 / 2005 * (1596 / 2005) + 160 / 2005 * (160 / 2005)) = 4 / 5
        rw [show (1596 / 2005 : ℝ) * (1596 / 2005) + 160 / 2005 * (160 / 2005) = (4 / 5) ^ 2 by norm_num,
          Real.sqrt_sq (by norm_num)]
      rw [u1, hh]
      show (4 / 5 : ℝ) - 1596 / 2005 ≤ _
      norm_num

/-- The hypotheses of `C125_angles` hold for a filter that has been initialised with the identity, when the field deviates
from the first axis by `2 arctan (1 / 20)` in the horizontal plane: the yaw that is read is near minus that. -/
example : ∃ (s : Aqua F32E) (v w : Vec F32E), Started margE s ∧ getAttitude s = .ok v ∧ Quat.conjugateNew v = .ok w ∧
    EulerNear w 0 0 (-(2 * Real.arctan (1 / 20))) (6 / 100) := by
  obtain ⟨s, hs, hA⟩ := margE_started
  obtain ⟨h1, h2, h3⟩ := offField_sq
  have hQ : ‖mkQ (20 / √401) 0 0 (-1 / √401)‖ = 1 := by
    rw [norm_mkQ, div_pow, div_pow, Real.sq_sqrt (by norm_num)]
    norm_num
  have hg : mkQ (20 / √401) 0 0 (-1 / √401) * mkQ 0 ((![0, 0, -1] : Fin 3 → ℝ) 0) ((![0, 0, -1] : Fin 3 → ℝ) 1)
      ((![0, 0, -1] : Fin 3 → ℝ) 2) * star (mkQ (20 / √401) 0 0 (-1 / √401)) = mkQ 0 0 0 (-1) := by
    show mkQ (20 / √401) 0 0 (-1 / √401) * mkQ 0 0 0 (-1) * star (mkQ (20 / √401) 0 0 (-1 / √401)) = mkQ 0 0 0 (-1)
    rw [yaw_turn, h1, h2, h3]
    norm_num
  have he : toMatrix 3 3 (dcmOf (mkQ (20 / √401) 0 0 (-1 / √401))) = rotZ (-(2 * Real.arctan (1 / 20))) * rotY 0 * rotX 0 := by
    have c1 : Real.cos (2 * Real.arctan (1 / 20)) = 399 / 401 := by
      rw [Real.cos_two_mul, Real.cos_sq_arctan]; norm_num
    have s1 : Real.sin (2 * Real.arctan (1 / 20)) = 40 / 401 := by
      rw [Real.sin_two_mul, Real.sin_arctan, Real.cos_arctan, mul_assoc, div_mul_div_comm, mul_one, Real.mul_self_sqrt (by positivity)]
      norm_num
    ext i j
    fin_cases i <;> fin_cases j <;>
      simp [toMatrix, dcmOf, tbl, mkQ, rotZ, rotY, rotX, Matrix.mul_apply, Fin.sum_univ_three]
    all_goals rw [show (20 : ℝ)⁻¹ = 1 / 20 by norm_num]
    · rw [c1, ← sq, ← sq, h1, h2]; norm_num
    · rw [s1, h3]; norm_num
    · rw [s1, h3]; norm_num
    · rw [c1, ← sq, h2]; norm_num
  obtain ⟨v, w, k⟩ := C125_angles (D := 6 / 100) hQ hg offField_turn (by norm_num) le_rfl (by norm_num) (by norm_num) (by norm_num) hA he
    (by rw [abs_zero]; positivity) (by norm_num) (by norm_num) (by norm_num)
  exact ⟨s, v, w, hs, k⟩

/-- The hypotheses of `C125_noisy` hold for that filter when the field that was read, (1596, 160, 1203), deviates from the
true one, (4/5, 0, 3/5), and the true attitude is the identity. -/
example : ∃ (s : Aqua F32E) (v w : Vec F32E), Started margE s ∧ getAttitude s = .ok v ∧ Quat.conjugateNew v = .ok w ∧
    EulerNear w 0 0 0 (3 / 25) := by
  obtain ⟨s, hs, hA⟩ := margE_started
  have n1 : ‖(1 : Quaternion ℝ)‖ = 1 := norm_one (map_one _)
  have na : norm3 ![0, 0, -1] = 1 := by
    show √((0 : ℝ) ^ 2 + 0 ^ 2 + (-1) ^ 2) = 1
    norm_num
  have nm : norm3 ![1596, 160, 1203] = 2005 := by
    show √((1596 : ℝ) ^ 2 + 160 ^ 2 + 1203 ^ 2) = 2005
    rw [show (1596 : ℝ) ^ 2 + 160 ^ 2 + 1203 ^ 2 = 2005 ^ 2 by norm_num, Real.sqrt_sq (by norm_num)]
  have heps : epsilon ℝ < 1 := by norm_num [epsilon]
  have da : dir ![0, 0, -1] = ![0, 0, -1] := by
    funext i
    unfold dir
    rw [if_pos (by rw [na]; exact heps), na, div_one]
  have dm : dir ![1596, 160, 1203] = offField := by
    funext i
    unfold dir
    rw [if_pos (by rw [nm]; linarith), nm]
    fin_cases i <;> rfl
  have hz : norm3 ((![0, 0, -1] : Fin 3 → ℝ) - dir ![0, 0, -1]) ≤ 0 := by
    rw [da, sub_self]
    show √((0 : ℝ) ^ 2 + 0 ^ 2 + 0 ^ 2) ≤ 0
    norm_num
  have hμ : norm3 ((![4 / 5, 0, 3 / 5] : Fin 3 → ℝ) - dir ![1596, 160, 1203]) ≤ 8 / 100 := by
    rw [dm]
    show √((4 / 5 - 1596 / 2005 : ℝ) ^ 2 + (0 - 160 / 2005) ^ 2 + (3 / 5 - 1203 / 2005) ^ 2) ≤ 8 / 100
    exact Real.sqrt_le_iff.mpr ⟨by norm_num, by norm_num⟩
  have he : toMatrix 3 3 (dcmOf (1 : Quaternion ℝ)) = rotZ 0 * rotY 0 * rotX 0 := by
    ext i j
    fin_cases i <;> fin_cases j <;>
      simp [toMatrix, dcmOf, tbl, Quaternion.re_one, Quaternion.imI_one, Quaternion.imJ_one, Quaternion.imK_one, rotZ, rotY, rotX, Matrix.mul_apply, Fin.sum_univ_three]
  obtain ⟨v, w, k⟩ := C125_noisy (a := ![0, 0, -1]) (m := ![1596, 160, 1203]) (g := ![0, 0, -1]) (b := ![4 / 5, 0, 3 / 5])
    (h := 4 / 5) (c := 3 / 5) (k := -(3 / 5)) (l := 4 / 5) (δ := 0) (ε := 1 / 10) (ν := 0) (μ := 8 / 100) (D := 3 / 25) n1
    (by rw [star_one, mul_one, one_mul]; rfl) (by rw [star_one, mul_one, one_mul]; rfl) (by norm_num) (by norm_num)
    (by rw [na]; exact heps) (by rw [nm]; linarith) hz hμ (by norm_num) le_rfl (by norm_num)
    (by
      rw [na, dm]
      show -(3 / 5 : ℝ) * 1 = 0 * (1596 / 2005) + 0 * (160 / 2005) + -1 * (1203 / 2005)
      norm_num)
    (by norm_num [abs_of_pos]) (by norm_num [abs_of_pos]) (by norm_num) (by norm_num) (by rwa [dm]) he
    (by rw [abs_zero]; positivity) (by norm_num) (by norm_num) (by norm_num)
  exact ⟨s, v, w, hs, k⟩

end Aqua
end Verif
