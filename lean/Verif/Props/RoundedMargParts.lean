import Verif.Props.RoundedMargInterp

/-
The two corrections of the MARG mode of the AQUA filter in binary32 (used for C111).
-/

set_option linter.unusedSectionVars false

namespace Verif
open Scalar Finset

variable {F : Type} [Scalar F] [R : Rounded F]

namespace Aqua

theorem unrot_eq {U : Quaternion ℝ} (hU : ‖U‖ = 1) (a : Fin 3 → ℝ) : pureQ (unrot U a) = star U * pureQ a * U :=
  unrot_unit (normSq_of_norm hU) a

/-- The prediction and the quaternion of the predicted gravity. -/
theorem margAcc_acc [Halves F] {s : Aqua F} {f f0 : Nat → F} {F0 : Nat → Nat → F} {p q r x y z : F} {va qa : Vec F} {T : Mat F}
    (hA : VecIs s.attitude 4 f) (hf : ∀ i, i < 4 → Finite (f i)) (h1 : s.gyr.getX = .ok p) (h2 : s.gyr.getY = .ok q)
    (h3 : s.gyr.getZ = .ok r) (hp : Finite p) (hq : Finite q) (hr : Finite r) (ht : Finite s.ts) {ω P : Quaternion ℝ}
    (hω : ω = mkQ 0 ⟪p⟫ ⟪q⟫ ⟪r⟫) (hN : ‖ω‖ ≤ 2 ^ 63) (hb : ‖ω‖ * |⟪s.ts⟫| ≤ 2 ^ 60) (hb' : |⟪s.ts⟫| ≤ 2 ^ 100)
    (k1 : 1 / 2 ≤ ‖qval f‖) (k2 : ‖qval f‖ ≤ 2) (hva : VecIs va 3 (seq3 x y z)) (hfa : ∀ i, i < 3 → Finite (seq3 x y z i))
    (hqa : VecIs qa 4 f0) (hT : MatIs T 3 1 F0) (hP : P = predQ (qval f) ω ⟪s.ts⟫) (hP1 : ‖P‖ = 1) {a : Fin 3 → ℝ}
    (ha : a = ![⟪x⟫, ⟪y⟫, ⟪z⟫]) {n l : ℝ} (hn : n = norm3 a) (n0 : 1 / 10 ^ 4 ≤ n) (n1 : n ≤ 2 ^ 61)
    (hg : unrot P a 2 ≤ -(n / 2)) (hl : l = √((1 - unrot P a 2) / 2)) :
    ∃ v T' w g F1 h, margAcc s va qa T = .ok (v, T', w) ∧ VecIs v 4 g ∧ (∀ i, i < 4 → Finite (g i)) ∧ NearUnit g ∧
      ‖qval g - P‖ ≤ 41 / 10 ^ 7 ∧ MatIs T' 3 1 F1 ∧ VecIs w 4 h ∧ (∀ i, i < 4 → Finite (h i)) ∧
      ‖qval h - accQ (unrot P a)‖ ≤ 96 / 10 ^ 6 * l ∧ (accQ (unrot P a)).re = l ∧ ‖accQ (unrot P a)‖ ≤ 2 * l ∧ 7 / 10 ≤ l ∧
      l ≤ 2 ^ 31 := by
  obtain ⟨v, g, e1, m1, m2, m3, m4⟩ := predict_acc hA hf h1 h2 h3 hp hq hr ht hω hN hb hb' k1 k2
  rw [← hP] at m4
  have hvn : vval (seq3 x y z) = pureQ a := by rw [ha]; rfl
  have hpn : ‖pureQ a‖ = n := by
    rw [hn, pureQ, norm_mkQ, norm3]
    congr 1
    ring
  obtain ⟨T', L, h, e2, ⟨F1, m5⟩, m6, m7, m8⟩ := toGlobal_acc hT m1 m2 m3 (by norm_num) hva hfa (by
    rw [hvn, hpn]
    norm_num at n1 ⊢
    linarith)
  rw [hvn, hpn] at m8
  have d1 := conj_dist (G := pureQ a) hP1 m4
  rw [← unrot_eq hP1, hpn] at d1
  have d2 : ‖vval h - pureQ (unrot P a)‖ ≤ 16 / 10 ^ 6 * n := by
    have := norm_sub_le_norm_sub_add_norm_sub (vval h) (star (qval g) * pureQ a * qval g) (pureQ (unrot P a))
    norm_num at this d1 m8 n0 ⊢
    linarith
  obtain ⟨j1, j2, j3⟩ := abs_im_le (vval h - pureQ (unrot P a))
  have hn' : n = norm3 (unrot P a) := by rw [unrot_norm (normSq_of_norm hP1), hn]
  obtain ⟨c1, c2, c3, c4, c5, c6⟩ := accQuat_acc hn' n0 n1 hg hl ⟨m7 0 (by omega), j1.trans d2⟩ ⟨m7 1 (by omega), j2.trans d2⟩
    ⟨m7 2 (by omega), j3.trans d2⟩
  rcases hb : accQuaternion (h 0) (h 1) (h 2) with ⟨qw, qx, qy, qz⟩
  rw [hb] at c1 c2
  obtain ⟨w, e3, m9⟩ := Quat.fillq_ok hqa c1.1 c1.2.1 c1.2.2.1 c1.2.2.2
  refine ⟨v, T', w, g, F1, _, ?_, m1, m2, m3, m4, m5, m9, forall_lt_four.mpr c1, c2, c3, c4, c5, c6⟩
  have l0 : L.getElement 0 = .ok (h 0) := m6.get 0 (by omega)
  have l1 : L.getElement 1 = .ok (h 1) := m6.get 1 (by omega)
  have l2 : L.getElement 2 = .ok (h 2) := m6.get 2 (by omega)
  unfold margAcc
  simp only [e1, e2, l0, l1, l2, Res.mapErr_ok, Res.ok_bind, hb, exec_ok e3]

/-- A product of computed quaternions. -/
theorem product_acc {s : Vec F} {a b : Vec F} {fa fb : Nat → F} {P N : Quaternion ℝ} {ea eb dP dN : ℝ} (hs : s.Holds4)
    (ha : VecIs a 4 fa) (hb : VecIs b 4 fb) (hfa : ∀ i, i < 4 → Finite (fa i)) (hfb : ∀ i, i < 4 → Finite (fb i))
    (na : |‖qval fa‖ - 1| ≤ ea) (nb : |‖qval fb‖ - 1| ≤ eb) (hea : ea ≤ 1 / 10 ^ 5) (heb : eb ≤ 1 / 10 ^ 5)
    (hP : ‖P‖ = 1) (hdP : ‖qval fa - P‖ ≤ dP) (hdN : ‖qval fb - N‖ ≤ dN) :
    ∃ m h, exec s (Quat.mul a b) = .ok m ∧ VecIs m 4 h ∧ (∀ i, i < 4 → Finite (h i)) ∧
      |‖qval h‖ - 1| ≤ 10001 / 10000 * (ea + eb) + 1435 / 10 ^ 9 ∧
      ‖qval h - P * N‖ ≤ 100001 / 100000 * dP + dN + 1435 / 10 ^ 9 := by
  have na' := abs_le.mp na
  have nb' := abs_le.mp nb
  have hdP0 := (norm_nonneg _).trans hdP
  have hprod : |‖qval fa‖ * ‖qval fb‖ - 1| ≤ 10001 / 10000 * (ea + eb) := by
    have e : ‖qval fa‖ * ‖qval fb‖ - 1 = (‖qval fa‖ - 1) * ‖qval fb‖ + (‖qval fb‖ - 1) := by ring
    rw [e]
    refine (abs_add_le _ _).trans ?_
    rw [abs_mul, abs_norm]
    have h1 : |‖qval fa‖ - 1| * ‖qval fb‖ ≤ ea * (10001 / 10000) := mul_le_mul na (by linarith) (norm_nonneg _) ((abs_nonneg _).trans na)
    have := (abs_nonneg _).trans nb
    linarith
  have hp' := abs_le.mp hprod
  obtain ⟨m, h, e1, hm, hh, hd⟩ := C79_mul ha hb hfa hfb (by norm_num; linarith)
  obtain ⟨f, hs, -⟩ := hs
  have hd' : ‖qval h - qval fa * qval fb‖ ≤ 1435 / 10 ^ 9 := by
    refine hd.trans ?_
    norm_num
    linarith
  refine ⟨m, h, by rw [C34_agree hs ha hb, e1], hm, hh, ?_, ?_⟩
  · have h1 := abs_le.mp ((abs_norm_sub_norm_le (qval h) (qval fa * qval fb)).trans hd')
    rw [norm_mul] at h1
    rw [abs_le]
    constructor <;> linarith
  · have e : qval h - P * N = (qval h - qval fa * qval fb) + (qval fa - P) * qval fb + P * (qval fb - N) := by noncomm_ring
    rw [e]
    refine (norm_add_le _ _).trans ((add_le_add (norm_add_le _ _) le_rfl).trans ?_)
    rw [norm_mul, norm_mul, hP, one_mul]
    have t : ‖qval fa - P‖ * ‖qval fb‖ ≤ dP * (100001 / 100000) := mul_le_mul hdP (by linarith) (norm_nonneg _) hdP0
    linarith

/-- The heading quaternion is a direction. -/
theorem magPos_unit {x y : ℝ} (hx : 0 < x) :
    magPos x y = ‖mkQ (x + √(x * x + y * y)) 0 0 y‖⁻¹ • mkQ (x + √(x * x + y * y)) 0 0 y ∧
      2 * x ≤ ‖mkQ (x + √(x * x + y * y)) 0 0 y‖ ∧ 7 / 10 ≤ (magPos x y).re := by
  have hxy : 0 ≤ x * x + y * y := add_nonneg (mul_self_nonneg _) (mul_self_nonneg _)
  have hr2 := Real.sq_sqrt hxy
  have hxr : x ≤ √(x * x + y * y) := Real.le_sqrt_of_sq_le (by nlinarith [mul_self_nonneg y])
  unfold magPos
  set ρ := √(x * x + y * y) with hρ
  have hρ0 : 0 < ρ := lt_of_lt_of_le hx hxr
  have hk : 0 < x * x + y * y + x * ρ := by positivity
  have hK := Real.sq_sqrt hk.le
  have hK0 := Real.sqrt_pos.mpr hk
  set K := √(x * x + y * y + x * ρ) with hKd
  have h2 := Real.sq_sqrt (show (0 : ℝ) ≤ 2 by norm_num)
  have h20 : 0 < √(2 : ℝ) := Real.sqrt_pos.mpr (by norm_num)
  have hn : ‖mkQ (x + ρ) 0 0 y‖ = √2 * K := by
    rw [norm_mkQ, hKd, ← Real.sqrt_mul (by norm_num)]
    congr 1
    nlinarith
  have hd : √(2 * (x * x + y * y)) = √2 * ρ := by rw [Real.sqrt_mul (by norm_num)]
  rw [hn, hd]
  refine ⟨?_, ?_, ?_⟩
  · have : (√2 * K)⁻¹ • mkQ (x + ρ) 0 0 y = mkQ ((x + ρ) / (√2 * K)) 0 0 (y / (√2 * K)) := by
      apply Quaternion.ext <;> simp [div_eq_inv_mul]
    rw [this]
    congr 1
    rw [div_eq_div_iff (by positivity) (by positivity)]
    have : K * K = (x + ρ) * ρ := by nlinarith
    linear_combination √2 * this
  · refine (abs_le_of_sq_le_sq' ?_ (by positivity)).2
    rw [mul_pow, mul_pow, h2, hK]
    nlinarith
  · change 7 / 10 ≤ K / (√2 * ρ)
    rw [le_div_iff₀ (by positivity)]
    refine (abs_le_of_sq_le_sq' ?_ hK0.le).2
    rw [mul_pow, mul_pow, h2, hK]
    nlinarith

theorem magPos_close {x y a b E h : ℝ} (hx : h ≤ x) (h0 : 0 < h) (hE : √((a - x) * (a - x) + (b - y) * (b - y)) ≤ E)
    (hEh : E ≤ h / 40) : 39 / 40 * h ≤ a ∧ ‖magPos a b - magPos x y‖ ≤ 103 / 100 * (E / h) := by
  have hE0 := (Real.sqrt_nonneg _).trans hE
  have hax : |a - x| ≤ E := (Real.abs_le_sqrt (by nlinarith [mul_self_nonneg (b - y)])).trans hE
  have ha : 39 / 40 * h ≤ a := by linarith [(abs_le.mp hax).1]
  refine ⟨ha, ?_⟩
  obtain ⟨u1, u2, -⟩ := magPos_unit (x := a) (y := b) (by linarith)
  obtain ⟨v1, v2, -⟩ := magPos_unit (x := x) (y := y) (by linarith)
  have hd := horiz_dist hE
  have hD : ‖mkQ (a + √(a * a + b * b)) 0 0 b - mkQ (x + √(x * x + y * y)) 0 0 y‖ ≤ 2 * E := by
    have e : mkQ (a + √(a * a + b * b)) 0 0 b - mkQ (x + √(x * x + y * y)) 0 0 y =
        mkQ (a - x) 0 0 (b - y) + mkQ (√(a * a + b * b) - √(x * x + y * y)) 0 0 0 := by
      apply Quaternion.ext <;> simp
      ring
    rw [e]
    refine (norm_add_le _ _).trans ?_
    have t1 : ‖mkQ (a - x) 0 0 (b - y)‖ ≤ E := by
      rw [norm_mkQ]
      refine le_trans (le_of_eq ?_) hE
      congr 1
      ring
    have t2 : ‖mkQ (√(a * a + b * b) - √(x * x + y * y)) 0 0 0‖ ≤ E := by
      rw [norm_mkQ]
      have : ∀ t : ℝ, √(t ^ 2 + 0 ^ 2 + 0 ^ 2 + 0 ^ 2) = |t| := fun t => by
        rw [← Real.sqrt_sq_eq_abs]
        congr 1
        ring
      rw [this, abs_le]
      constructor <;> linarith [hd.1, hd.2]
    linarith
  have := unit_close (m := 2 * (39 / 40 * h)) (by linarith) (le_trans (by linarith) u2) (le_trans (by linarith) v2)
  rw [u1, v1]
  refine this.trans ?_
  rw [div_le_iff₀ (by linarith)]
  have : 103 / 100 * (E / h) * (2 * (39 / 40 * h)) = 103 / 100 * 2 * (39 / 40) * E := by field_simp
  rw [this]
  linarith

theorem abs_re_le (q : Quaternion ℝ) : |q.re| ≤ ‖q‖ := by
  have h := quat_norm_sq q
  refine abs_le_of_sq_le_sq ?_ (norm_nonneg _)
  nlinarith [sq_nonneg q.imI, sq_nonneg q.imJ, sq_nonneg q.imK]

theorem mag_quot {x b : ℝ} (hx : x ≤ 3336 / 10 ^ 7 * b + 102 / 10 ^ 8) (h0 : 0 ≤ b) (h1 : b ≤ 100) :
    x / (1 - x) ≤ 35 / 10 ^ 5 * b + 11 / 10 ^ 7 := by
  norm_num at hx ⊢
  rw [div_le_iff₀ (by linarith)]
  have : (7 / 20000 * b + 11 / 10000000) * x ≤ (7 / 20000 * b + 11 / 10000000) * (35 / 1000) :=
    mul_le_mul_of_nonneg_left (by linarith) (by linarith)
  linarith

/-- The interpolated quaternion of the heading. -/
theorem margMag_acc [ScalarLawful F] {att vm qm : Vec F} {T : Mat F} {fB k f0 : Nat → F} {F0 : Nat → Nat → F} {β u : F}
    {B : Quaternion ℝ} {m : Fin 3 → ℝ} {h : ℝ} (hatt : VecIs att 4 fB) (hfB : ∀ i, i < 4 → Finite (fB i))
    (nB : |‖qval fB‖ - 1| ≤ 35 / 10 ^ 7) (dB : ‖qval fB - B‖ ≤ 105 / 10 ^ 6) (hB : ‖B‖ = 1) (hvm : VecIs vm 3 k)
    (hk : ∀ i, i < 3 → Finite (k i)) (nk : |‖vval k‖ - 1| ≤ 1 / 10 ^ 6) (dk : ‖vval k - pureQ (dir m)‖ ≤ 7 / 4 / 10 ^ 6)
    (hqm : VecIs qm 4 f0) (hT : MatIs T 3 1 F0) (hβ : Finite β) (b0 : 0 ≤ ⟪β⟫) (b1 : ⟪β⟫ ≤ 1) (hu : Finite u) (u0 : 0 ≤ ⟪u⟫)
    (u1 : ⟪u⟫ ≤ 1) (hh : 1 / 100 ≤ h) (hm1 : ‖pureQ (dir m)‖ = 1) (hl : h ≤ unrot B (dir m) 0)
    (hur : ⟪u⟫ + 24 / 10 ^ 5 / h ≤ (magPos (unrot B (dir m) 0) (unrot B (dir m) 1)).re) :
    ∃ w d g, margMag att β u vm qm T = .ok (w, d) ∧ VecIs d 4 fB ∧ VecIs w 4 g ∧ (∀ i, i < 4 → Finite (g i)) ∧ NearUnit g ∧
      ‖qval g - lerpQ ⟪β⟫ (magPos (unrot B (dir m) 0) (unrot B (dir m) 1))‖ ≤ 35 / 10 ^ 5 * (⟪β⟫ / h) + 31 / 10 ^ 7 ∧
      ‖lerpQ ⟪β⟫ (magPos (unrot B (dir m) 0) (unrot B (dir m) 1))‖ = 1 ∧
      ⟪u⟫ < (magPos (unrot B (dir m) 0) (unrot B (dir m) 1)).re := by
  have h0 : 0 < h := by linarith
  obtain ⟨nk1, nk2⟩ := abs_le.mp nk
  norm_num at nk1 nk2
  obtain ⟨T', L, l, e1, -, c1, c2, c3⟩ := toGlobal_acc hT hatt hfB nB (by norm_num) hvm hk (by norm_num; linarith)
  have d1 := conj_dist (G := vval k) hB dB
  have d2 : ‖star B * vval k * B - pureQ (unrot B (dir m))‖ ≤ 7 / 4 / 10 ^ 6 := by
    rw [unrot_eq hB, conj_sub, conj_norm hB]
    exact dk
  have d3 : ‖vval l - pureQ (unrot B (dir m))‖ ≤ 225 / 10 ^ 6 := by
    have t1 := norm_sub_le_norm_sub_add_norm_sub (vval l) (star (qval fB) * vval k * qval fB) (pureQ (unrot B (dir m)))
    have t2 := norm_sub_le_norm_sub_add_norm_sub (star (qval fB) * vval k * qval fB) (star B * vval k * B) (pureQ (unrot B (dir m)))
    norm_num at t1 t2 c3 d1 d2 ⊢
    linarith
  have hun : ‖pureQ (unrot B (dir m))‖ = 1 := by rw [unrot_eq hB, conj_norm hB, hm1]
  generalize unrot B (dir m) = p at *
  have hxy : √((⟪l 0⟫ - p 0) * (⟪l 0⟫ - p 0) + (⟪l 1⟫ - p 1) * (⟪l 1⟫ - p 1)) ≤ 225 / 10 ^ 6 := by
    refine le_trans ?_ d3
    have e : vval l - pureQ p = mkQ 0 (⟪l 0⟫ - p 0) (⟪l 1⟫ - p 1) (⟪l 2⟫ - p 2) := by
      rw [vval, pureQ, mkQ_sub_three]
    rw [e, norm_mkQ]
    refine Real.sqrt_le_sqrt ?_
    nlinarith [sq_nonneg (⟪l 2⟫ - p 2)]
  obtain ⟨hla, hmag⟩ := magPos_close (x := p 0) (y := p 1) hl h0 hxy (by norm_num; linarith)
  have hp0 : 0 < p 0 := by linarith
  obtain ⟨-, -, hre⟩ := magPos_unit (y := p 1) hp0
  have h1 : h ≤ 1 := by
    have := (abs_im_le (pureQ p)).1
    rw [hun] at this
    exact hl.trans ((le_abs_self _).trans this)
  have hMn : ‖magPos (p 0) (p 1)‖ = 1 := by
    rw [quat_norm, (magPos_spec (add_pos_of_nonneg_of_pos (Real.sqrt_nonneg _) hp0) 0).1, Real.sqrt_one]
  have hd := horiz_dist hxy
  have hr1 : √(⟪l 0⟫ * ⟪l 0⟫ + ⟪l 1⟫ * ⟪l 1⟫) ≤ 2 := by
    have : √(p 0 * p 0 + p 1 * p 1) ≤ 1 := by
      rw [← hun, pureQ, norm_mkQ]
      refine Real.sqrt_le_sqrt ?_
      nlinarith [sq_nonneg (p 2)]
    have := hd.2
    norm_num at this
    linarith
  have hr0 : 1 / 10 ^ 5 ≤ √(⟪l 0⟫ * ⟪l 0⟫ + ⟪l 1⟫ * ⟪l 1⟫) := by
    refine Real.le_sqrt_of_sq_le ?_
    norm_num
    nlinarith [mul_self_nonneg ⟪l 1⟫]
  obtain ⟨m1, m2⟩ := mag_acc (c2 0 (by omega)) (c2 1 (by omega)) rfl hr0 hr1
  have hl0 : 0 ≤ ⟪l 0⟫ := by linarith
  have hge : (l 0 ≥ᶠ lit 0) = true := (R.le_val R.zero_finite (c2 0 (by omega))).mpr (by rw [R.zero_val]; exact hl0)
  rw [if_pos hge] at m1 m2
  rw [if_pos hl0] at m2
  rcases hb : magQuaternionPos (l 0) (l 1) (l 0 *ᶠ l 0 +ᶠ l 1 *ᶠ l 1) with ⟨qw, qx, qy, qz⟩
  rw [hb] at m1 m2
  obtain ⟨w, e2, m3⟩ := Quat.fillq_ok hqm m1.1 m1.2.1 m1.2.2.1 m1.2.2.2
  have hN : ‖qval (seq4 qw qx qy qz) - magPos (p 0) (p 1)‖ ≤ 2335 / 10 ^ 7 / h := by
    have t := norm_sub_le_norm_sub_add_norm_sub (quadQ (qw, qx, qy, qz)) (magPos ⟪l 0⟫ ⟪l 1⟫) (magPos (p 0) (p 1))
    refine t.trans ((add_le_add m2 hmag).trans ?_)
    rw [le_div_iff₀ h0, add_mul, mul_assoc, div_mul_cancel₀ _ h0.ne']
    norm_num
    linarith
  set r := (magPos (p 0) (p 1)).re with hr
  have hr0' : 0 < r := by linarith
  have hrle : r ≤ 1 := by
    rw [← hMn]
    exact (le_abs_self _).trans (abs_re_le _)
  have hih : h⁻¹ ≤ 100 := by
    rw [inv_le_comm₀ h0 (by norm_num)]
    linarith
  have hih0 : 0 < h⁻¹ := inv_pos.mpr h0
  obtain ⟨w', g, e3, n1, n2, n3, n4, n5, n6⟩ := interp_acc (Q := magPos (p 0) (p 1)) (r := r) (δ := 2335 / 10 ^ 7 / h / r)
    (d := 1 - ⟪β⟫ + ⟪β⟫ * r) m3 (forall_lt_four.mpr m1) hβ b0 b1 hu u0 u1 rfl hre (hrle.trans (by norm_num)) (by rw [hMn]; linarith)
    (by rw [div_mul_cancel₀ _ hr0'.ne']; exact hN)
    (by
      rw [div_le_iff₀ hr0', div_eq_mul_inv]
      norm_num
      linarith)
    (by
      rw [div_mul_cancel₀ _ hr0'.ne']
      have := div_lt_div_of_pos_right (show (2335 / 10 ^ 7 : ℝ) < 24 / 10 ^ 5 by norm_num) h0
      linarith)
    rfl
  rw [div_mul_cancel₀ _ hr0'.ne'] at n4
  obtain ⟨dd, e4, n7⟩ := Vec.duplicate_ok hatt hfB
  refine ⟨w', dd, g, ?_, n7, n1, n2, n3, n4.trans ?_, n5, n6⟩
  · have l0 : L.getElement 0 = .ok (l 0) := c1.get 0 (by omega)
    have l1 : L.getElement 1 = .ok (l 1) := c1.get 1 (by omega)
    unfold margMag
    simp only [e1, l0, l1, Res.mapErr_ok, Res.ok_bind, hb, exec_ok e2, e3, e4]
  · have hd' : 7 / 10 ≤ 1 - ⟪β⟫ + ⟪β⟫ * r := by
      have := mul_le_mul_of_nonneg_left (show 1 - r ≤ 3 / 10 by linarith) b0
      linarith
    have q0 : 0 ≤ ⟪β⟫ / h := by positivity
    have q1 : ⟪β⟫ / h ≤ 100 := by
      rw [div_le_iff₀ h0]
      linarith
    have q2 : ⟪β⟫ * (2335 / 10 ^ 7 / h) / (1 - ⟪β⟫ + ⟪β⟫ * r) ≤ 3336 / 10 ^ 7 * (⟪β⟫ / h) := by
      rw [div_le_iff₀ (by linarith), show ⟪β⟫ * (2335 / 10 ^ 7 / h) = 2335 / 10 ^ 7 * (⟪β⟫ / h) by ring]
      have := mul_le_mul_of_nonneg_left hd' q0
      generalize ⟪β⟫ / h = b at *
      norm_num
      linarith
    have := mag_quot (add_le_add q2 le_rfl) q0 q1
    norm_num at this ⊢
    linarith

end Aqua
end Verif
