import Verif.Props.Orthogonal
import Verif.Props.Extract
import Mathlib.LinearAlgebra.Matrix.Trace
import Mathlib.LinearAlgebra.Matrix.Adjugate
import Mathlib.Analysis.SpecialFunctions.Trigonometric.Inverse

/-
Claims about the matrix logarithm (C74), `adjugate_in_place` and `dlyap` (C75).
-/

set_option linter.unusedSectionVars false
set_option linter.unusedSimpArgs false

namespace Verif
open Scalar Finset

section
variable {K : Type} [Field K] [LinearOrder K] [IsStrictOrderedRing K] [Elementary K]

/-- A 3×3 matrix whose first column has no small entry and whose 2×2 minors in the first two columns
are not small can be factorised. -/
theorem Linalg.lup_three {a : Mat (Ext K)} {A : Nat → Nat → K}
    (ha : MatIs a 3 3 (fun i j => .fin (A i j))) (h0 : ∀ i, i < 3 → epsilon K ≤ |A i 0|)
    (h1 : ∀ p q, p < 3 → q < 3 → p ≠ q → epsilon K ≤ |A q 1 - A q 0 / A p 0 * A p 1|) :
    lup a ≠ .error (.err .Singular) := by
  intro h
  rcases lup_cases ha with ⟨_, s, st, π, u, hs, hI, q, hsq, hq, hlt⟩ | ⟨st, h', _⟩
  · have hs : s = 0 ∨ s = 1 := by omega
    rcases hs with rfl | rfl
    · have := hI.prod q 0 hq (by omega)
      simp at this
      rw [← this] at hlt
      exact absurd hlt (not_lt.mpr (h0 _ (hI.perm.lt q hq)))
    · have e0 := hI.prod 0 0 (by omega) (by omega)
      have e1 := hI.prod 0 1 (by omega) (by omega)
      have eq0 := hI.prod q 0 hq (by omega)
      have eq1 := hI.prod q 1 hq (by omega)
      rw [min_eq_right hsq] at eq0 eq1
      simp at e0 e1 eq0 eq1
      have hp : u (π 0) 0 ≠ 0 := fun hz => by
        have := h0 (π 0) (hI.perm.lt 0 (by omega))
        rw [e0, hz, abs_zero] at this
        exact absurd Linalg.eps_pos (not_lt.mpr this)
      have hne : π 0 ≠ π q := fun hh => by
        have := hI.perm.inj 0 q (by omega) hq hh
        omega
      have hh := h1 (π 0) (π q) (hI.perm.lt 0 (by omega)) (hI.perm.lt q hq) hne
      have hu : u (π q) 1 = A (π q) 1 - A (π q) 0 / A (π 0) 0 * A (π 0) 1 := by
        rw [eq0, eq1, e0, e1]
        field_simp
        ring
      rw [hu] at hlt
      exact absurd hlt (not_lt.mpr hh)
  · rw [h] at h'; cases h'

theorem isSoN_ok {a : Mat (Ext K)} {n : Nat} {A : Nat → Nat → K} (ha : MatIs a n n (fun i j => .fin (A i j)))
    (hd : a.det ≠ .error (.err .Singular)) : ∃ b, a.isSoN = .ok b := by
  obtain ⟨b, e, -⟩ := mulTranspose_run ha
  unfold Mat.isSoN
  rcases C25_det_abs ha with h | ⟨d, h, _⟩
  · exact absurd h hd
  · rw [h, Res.ok_bind, Ext.lit_one, allclose_fin, Res.ok_bind, ha.rows_eq]
    by_cases hc : |d - 1| ≤ epsilon K
    · exact ⟨b, by rw [decide_eq_true hc]; exact e⟩
    · exact ⟨false, by rw [decide_eq_false hc]; rfl⟩

theorem trace_toMatrix {m : Mat (Ext K)} {n : Nat} {A : Nat → Nat → K}
    (hm : MatIs m n n (fun i j => .fin (A i j))) :
    m.trace = .ok (.fin (toMatrix n n A).trace) := by
  rw [Mat.trace_eq hm, sumUp_fin, Matrix.trace, Finset.sum_range]
  rfl

end

section
variable {m : Mat XR} {n : Nat} {A : Nat → Nat → ℝ}

theorem zero_mul_div_zero (x : ℝ) : (.fin 0 : XR) *ᶠ ((.fin x : XR) /ᶠ .fin 0) = .nan := by
  have e : (.fin x : XR) /ᶠ .fin 0 = if x = 0 then .nan else if 0 ≤ x then .pinf else .ninf := by
    change Ext.div (.fin x) (.fin 0) = _
    simp [Ext.div, Ext.infOf]
  rw [e]
  change Ext.mul (.fin 0) _ = _
  split
  · rfl
  · split <;> simp [Ext.mul]

/-- The factor computed by `log`. -/
theorem log_factor {t : ℝ} :
    (-1 < (t - 1) / 2 ∧ (t - 1) / 2 < 1 →
      Scalar.acos (((.fin t : XR) -ᶠ lit 1) /ᶠ lit 2) /ᶠ
        (lit 2 *ᶠ Scalar.sin (Scalar.acos (((.fin t : XR) -ᶠ lit 1) /ᶠ lit 2))) =
      .fin (Real.arccos ((t - 1) / 2) / (2 * Real.sin (Real.arccos ((t - 1) / 2))))) ∧
    (¬(-1 < (t - 1) / 2 ∧ (t - 1) / 2 < 1) →
      (.fin 0 : XR) *ᶠ (Scalar.acos (((.fin t : XR) -ᶠ lit 1) /ᶠ lit 2) /ᶠ
        (lit 2 *ᶠ Scalar.sin (Scalar.acos (((.fin t : XR) -ᶠ lit 1) /ᶠ lit 2)))) = .nan) := by
  rw [lit_two, Ext.lit_one, Ext.sub_fin, Ext.div_fin _ (by norm_num)]
  constructor
  · rintro ⟨h1, h2⟩
    rw [Ext.acos_fin ⟨h1.le, h2.le⟩, Ext.sin_fin, Ext.mul_fin, Ext.div_fin]
    · rfl
    · have : 0 < Real.sin (Real.arccos ((t - 1) / 2)) := by
        rw [Real.sin_arccos]
        exact Real.sqrt_pos.mpr (by nlinarith)
      exact (mul_pos two_pos this).ne'
  · intro h
    by_cases hr : -1 ≤ (t - 1) / 2 ∧ (t - 1) / 2 ≤ 1
    · rw [Ext.acos_fin hr, Ext.sin_fin, Ext.mul_fin]
      have hz : (2 : ℝ) * Elementary.sin (Elementary.acos ((t - 1) / 2)) = 0 := by
        have : (t - 1) / 2 = 1 ∨ (t - 1) / 2 = -1 := by
          by_contra hc
          push Not at hc
          exact h ⟨lt_of_le_of_ne hr.1 hc.2.symm, lt_of_le_of_ne hr.2 hc.1⟩
        change 2 * Real.sin (Real.arccos ((t - 1) / 2)) = 0
        rcases this with h | h <;> rw [h] <;> simp
      rw [hz]
      exact zero_mul_div_zero _
    · have : Scalar.acos (.fin ((t - 1) / 2) : XR) = .nan := by
        change Ext.onUnit _ _ = _
        rw [Ext.onUnit, if_neg hr]
      rw [this]
      rfl

/-- C74: `log` of a square matrix whose determinant can be computed.  With `t = (trace - 1) / 2` strictly
between -1 and 1 and `θ = arccos t`, the result is `θ / (2 sin θ)` times `A - Aᵀ`, whether the matrix is
a rotation or not; otherwise it fails with `Nan`. -/
theorem C74_log (hm : MatIs m n n (fun i j => .fin (A i j))) (hd : m.det ≠ .error (.err .Singular)) :
    (-1 < ((toMatrix n n A).trace - 1) / 2 ∧ ((toMatrix n n A).trace - 1) / 2 < 1 →
      ∃ r r' B, m.log = .ok r ∧ Mat.logInPlace m = (.ok (), r') ∧ MatIs r n n (fun i j => .fin (B i j)) ∧
        MatIs r' n n (fun i j => .fin (B i j)) ∧ toMatrix n n B = (Real.arccos (((toMatrix n n A).trace - 1) / 2) /
            (2 * Real.sin (Real.arccos (((toMatrix n n A).trace - 1) / 2)))) •
          (toMatrix n n A - (toMatrix n n A).transpose)) ∧
    (¬(-1 < ((toMatrix n n A).trace - 1) / 2 ∧ ((toMatrix n n A).trace - 1) / 2 < 1) →
      m.log = .error (.err (.UtilsError .Nan)) ∧
      ∃ r, Mat.logInPlace m = (.error (.err (.UtilsError .Nan)), r) ∧ ∃ B, MatIs r n n (fun i j => .fin (B i j)) ∧
        toMatrix n n B = toMatrix n n A - (toMatrix n n A).transpose) := by
  obtain ⟨b, eb⟩ := isSoN_ok hm hd
  obtain ⟨t0, e0, h0⟩ := Mat.duplicate_ok hm (fun i j _ _ => Ext.finite_fin (A i j))
  obtain ⟨t1, e1, h1⟩ := Mat.exec_transpose h0 (fun i j _ _ => Ext.finite_fin (A i j))
  -- the difference, as a new matrix and in place
  have st1 := Mat.sub_stores (Mat.zeros_of hm) hm h1
  have st2 := Mat.subInPlace_stores hm h1
  have hz := Mat.zeros_of hm
  have fin : ∀ i j, i < n → j < n → Finite ((.fin (A i j) : XR) -ᶠ .fin (A j i)) :=
    fun i j _ _ => by rw [Ext.sub_fin]; exact Ext.finite_fin _
  obtain ⟨d1, e2, k1⟩ := Mat.exec_of_stores st1 hz fin
  obtain ⟨d2, e3, k2⟩ := Mat.run_of_stores st2 hm fin
  set w : XR := Scalar.acos (((.fin (toMatrix n n A).trace : XR) -ᶠ lit 1) /ᶠ lit 2) /ᶠ
    (lit 2 *ᶠ Scalar.sin (Scalar.acos (((.fin (toMatrix n n A).trace : XR) -ᶠ lit 1) /ᶠ lit 2))) with hw
  have f1 : m.log = exec d1 (Mat.mulByScalarInPlace w) := by
    unfold Mat.log
    simp only [eb, trace_toMatrix hm, e0, e1, Mat.subNew_eq hm h1, e2, Res.ok_bind]
    rfl
  have f2 : Mat.logInPlace m = Mat.mulByScalarInPlace w d2 := by
    unfold Mat.logInPlace
    simp only [Op.get_bind, eb, trace_toMatrix hm, e0, e1, Op.liftOk_bind]
    rw [Op.bind_ok e3]
  have l1 : MatIs d1 n n (fun i j => .fin (A i j - A j i)) := k1.congr fun i j _ _ => Ext.sub_fin _ _
  have l2 : MatIs d2 n n (fun i j => .fin (A i j - A j i)) := k2.congr fun i j _ _ => Ext.sub_fin _ _
  have g1 := Mat.mulByScalarInPlace_stores (x := w) l1
  have g2 := Mat.mulByScalarInPlace_stores (x := w) l2
  have hfac := log_factor (t := (toMatrix n n A).trace)
  rw [← hw] at hfac
  refine ⟨fun ht => ?_, fun ht => ?_⟩
  · set c := Real.arccos (((toMatrix n n A).trace - 1) / 2) /
      (2 * Real.sin (Real.arccos (((toMatrix n n A).trace - 1) / 2))) with hc
    have hwc : w = .fin c := hfac.1 ht
    rw [hwc] at g1 g2 f1 f2
    obtain ⟨r, er, hr⟩ := Mat.exec_of_stores g1 l1 (fun i j _ _ => by rw [Ext.mul_fin]; exact Ext.finite_fin _)
    obtain ⟨r', er', hr'⟩ := Mat.run_of_stores g2 l2 (fun i j _ _ => by rw [Ext.mul_fin]; exact Ext.finite_fin _)
    refine ⟨r, r', fun i j => (A i j - A j i) * c, by rw [f1, er], by rw [f2, er'],
      hr.congr fun i j _ _ => Ext.mul_fin _ _, hr'.congr fun i j _ _ => Ext.mul_fin _ _, ?_⟩
    ext i j
    simp [toMatrix, mul_comm]
  · have hn := hm.rpos
    have bad : (.fin (A 0 0 - A 0 0) : XR) *ᶠ w = .nan := by rw [sub_self]; exact hfac.2 ht
    have hb : ¬Finite ((.fin (A 0 0 - A 0 0) : XR) *ᶠ w) := by rw [bad]; exact fun h => by cases h.1
    have r1 := g1.2 0 0 hn hn (fun i j _ _ h => by omega) hb
    have r2 := g2.2 0 0 hn hn (fun i j _ _ h => by omega) hb
    dsimp only at r1 r2
    rw [bad] at r1 r2
    refine ⟨by rw [f1, exec, r1]; rfl, _, by rw [f2, r2]; rfl, fun i j => A i j - A j i, ?_, ?_⟩
    · have : d2.overwrite (0 * n + 0) (fun i j => (.fin (A i j - A j i) : XR) *ᶠ w) = d2 := by
        simp [Mat.overwrite]
      rw [this]
      exact l2
    · ext i j
      simp [toMatrix]

/-- C74: when the determinant cannot be computed both fail, without effect; and so does a matrix that is
not square. -/
theorem C74_fail {F : Type} [Scalar F] {m : Mat F} {e : Fail LinalgError} (hd : m.det = .error e) :
    m.log = .error e ∧ Mat.logInPlace m = (.error e, m) := by
  have : m.isSoN = .error e := by unfold Mat.isSoN; rw [hd]; rfl
  constructor
  · unfold Mat.log; rw [this]; rfl
  · unfold Mat.logInPlace; simp only [Op.get_bind, this]; rfl

/-- The matrix of the cross product with a vector. -/
def crossMat (x y z : ℝ) : Matrix (Fin 3) (Fin 3) ℝ := !![0, -z, y; z, 0, -x; -y, x, 0]

/-- The rotation by the angle `θ` about the unit vector `(x, y, z)`, by the formula of Rodrigues. -/
noncomputable def rodrigues (θ x y z : ℝ) : Matrix (Fin 3) (Fin 3) ℝ :=
  1 + Real.sin θ • crossMat x y z + (1 - Real.cos θ) • (crossMat x y z * crossMat x y z)

/-- C74: `log` of the rotation by an angle strictly between 0 and π about a unit vector is the angle times
the matrix of the cross product with this vector, provided that `det` does not fail. -/
theorem C74_rodrigues {θ x y z : ℝ} (hm : MatIs m 3 3 (fun i j => .fin (A i j)))
    (hd : m.det ≠ .error (.err .Singular)) (hu : x ^ 2 + y ^ 2 + z ^ 2 = 1) (h0 : 0 < θ) (hπ : θ < Real.pi)
    (hA : toMatrix 3 3 A = rodrigues θ x y z) :
    ∃ r r' B, m.log = .ok r ∧ Mat.logInPlace m = (.ok (), r') ∧ MatIs r 3 3 (fun i j => .fin (B i j)) ∧
      MatIs r' 3 3 (fun i j => .fin (B i j)) ∧ toMatrix 3 3 B = θ • crossMat x y z := by
  have ht : ((toMatrix 3 3 A).trace - 1) / 2 = Real.cos θ := by
    rw [hA]
    simp [rodrigues, crossMat, Matrix.trace, Fin.sum_univ_three, Matrix.mul_apply]
    linear_combination (Real.cos θ - 1) * hu
  have hs : 0 < Real.sin θ := Real.sin_pos_of_pos_of_lt_pi h0 hπ
  have hc1 : Real.cos θ < 1 := by
    by_contra h
    have : Real.cos θ = 1 := le_antisymm (Real.cos_le_one θ) (not_lt.mp h)
    have := Real.sin_sq_add_cos_sq θ
    nlinarith
  have hc2 : -1 < Real.cos θ := by
    by_contra h
    have : Real.cos θ = -1 := le_antisymm (not_lt.mp h) (Real.neg_one_le_cos θ)
    have := Real.sin_sq_add_cos_sq θ
    nlinarith
  obtain ⟨r, r', B, e1, e2, k1, k2, hB⟩ := (C74_log hm hd).1 (by rw [ht]; exact ⟨hc2, hc1⟩)
  refine ⟨r, r', B, e1, e2, k1, k2, ?_⟩
  rw [hB, ht, Real.arccos_cos h0.le hπ.le]
  have hdiff : toMatrix 3 3 A - (toMatrix 3 3 A).transpose = (2 * Real.sin θ) • crossMat x y z := by
    rw [hA]
    ext i j
    fin_cases i <;> fin_cases j <;> simp [rodrigues, crossMat, Matrix.mul_apply, Fin.sum_univ_three] <;> ring
  rw [hdiff, smul_smul, div_mul_cancel₀ _ (by positivity)]

/-- C74: the identity has no logarithm: `log` fails with `Nan`. -/
theorem C74_identity (hm : MatIs m 3 3 (fun i j => .fin (A i j))) (hA : toMatrix 3 3 A = 1)
    (hd : m.det ≠ .error (.err .Singular)) : m.log = .error (.err (.UtilsError .Nan)) :=
  ((C74_log hm hd).2 (by rw [hA]; simp [Matrix.trace]; norm_num)).1

/-- C75: `adjugate_in_place` multiplies the transpose by the determinant. -/
theorem C75_adjugate (hm : MatIs m n n (fun i j => .fin (A i j))) (h3 : n ≤ 3)
    (hd : m.det ≠ .error (.err .Singular)) :
    ∃ r B, Mat.adjugateInPlace m = (.ok (), r) ∧ MatIs r n n (fun i j => .fin (B i j)) ∧
      toMatrix n n B = (toMatrix n n A).det • (toMatrix n n A).transpose := by
  obtain ⟨b, eb⟩ := isSoN_ok hm hd
  have hdet : m.det = .ok (.fin (toMatrix n n A).det) := (C25_det_small hm h3).resolve_left hd
  obtain ⟨t, e1, h1⟩ := Mat.transpose_ok hm (fun i j _ _ => Ext.finite_fin (A i j))
  obtain ⟨r, e2, h2⟩ := Mat.run_of_stores (Mat.mulByScalarInPlace_stores (x := .fin (toMatrix n n A).det) h1) h1
    (fun i j _ _ => by rw [Ext.mul_fin]; exact Ext.finite_fin _)
  refine ⟨r, fun i j => A j i * (toMatrix n n A).det, ?_, h2.congr fun i j _ _ => Ext.mul_fin _ _, ?_⟩
  · unfold Mat.adjugateInPlace
    simp only [Op.get_bind, eb, hdet, Op.liftOk_bind]
    rw [Op.bind_ok e1, e2]
  · ext i j
    simp [toMatrix, mul_comm]

/-- C75: for an orthogonal matrix this is the adjugate. -/
theorem C75_adjugate_orthogonal (hm : MatIs m n n (fun i j => .fin (A i j))) (h3 : n ≤ 3)
    (hd : m.det ≠ .error (.err .Singular)) (ho : toMatrix n n A * (toMatrix n n A).transpose = 1) :
    ∃ r B, Mat.adjugateInPlace m = (.ok (), r) ∧ MatIs r n n (fun i j => .fin (B i j)) ∧
      toMatrix n n B = (toMatrix n n A).adjugate := by
  obtain ⟨r, B, e, h, hB⟩ := C75_adjugate hm h3 hd
  refine ⟨r, B, e, h, ?_⟩
  rw [hB]
  have h1 := (toMatrix n n A).adjugate_mul
  calc (toMatrix n n A).det • (toMatrix n n A).transpose
      = ((toMatrix n n A).adjugate * toMatrix n n A) * (toMatrix n n A).transpose := by
        rw [h1, Matrix.smul_mul, Matrix.one_mul]
    _ = _ := by rw [Matrix.mul_assoc, ho, Matrix.mul_one]

end

/-- C75: for a matrix that is not orthogonal it is not the adjugate, and success is reported. -/
theorem C75_adjugate_wrong :
    (do
      let r ← exec (Mat.of 2 2 fun i j => (.fin (tbl [[2, 1], [1, 1]] i j) : XQ)) Mat.adjugateInPlace
      .ok [← r.getElement 0 0, ← r.getElement 0 1, ← r.getElement 1 0, ← r.getElement 1 1]) =
        (.ok [.fin 2, .fin 1, .fin 1, .fin 1] : Res LinalgError (List XQ)) ∧
    (toMatrix 2 2 (tbl [[2, 1], [1, 1]] : Nat → Nat → ℚ)).adjugate = !![1, -1; -1, 2] := by
  refine ⟨by decide +kernel, ?_⟩
  rw [Matrix.adjugate_fin_two]
  ext i j
  fin_cases i <;> fin_cases j <;> rfl

section
variable {F : Type} [Scalar F] {a q : Mat F} {r c r' c' : Nat} {f g : Nat → Nat → F}

theorem Mat.isSameSizeAs_eq (ha : MatIs a r c f) (hq : MatIs q r' c' g) :
    a.isSameSizeAs q = .ok (decide (r = r' ∧ c = c')) := by
  unfold Mat.isSameSizeAs
  rw [ha.init, hq.init, ha.rows_eq, ha.cols_eq, hq.rows_eq, hq.cols_eq]
  by_cases h1 : r = r' <;> by_cases h2 : c = c' <;> simp [h1, h2]

/-- C75: `dlyap` tests its arguments in this order; whenever all tests pass it returns the zero matrix. -/
theorem C75_dlyap (ha : MatIs a r c f) (hq : MatIs q r' c' g) :
    (r ≠ c → a.dlyap q = .error (.err .NotSquare)) ∧
    (r = c → (∀ e, q.isPositiveDefinite = .error e → a.dlyap q = .error e) ∧
      (q.isPositiveDefinite = .ok false → a.dlyap q = .error (.err .NotPositiveDefinite)) ∧
      (q.isPositiveDefinite = .ok true → r ≠ r' ∨ c ≠ c' → a.dlyap q = .error (.err .NotSameSize)) ∧
      (q.isPositiveDefinite = .ok true → r = r' → c = c' →
        ∃ x, a.dlyap q = .ok x ∧ MatIs x r c (fun _ _ => lit 0))) := by
  unfold Mat.dlyap
  rw [Mat.isSquare_eq ha, Res.ok_bind]
  refine ⟨fun h => by rw [decide_eq_false h]; rfl, fun h => ?_⟩
  rw [decide_eq_true h]
  simp only [Bool.not_true, Bool.false_eq_true, if_false]
  refine ⟨fun e h => by rw [h]; rfl, fun h => by rw [h]; rfl, fun h hs => ?_, fun h h1 h2 => ?_⟩
  · rw [h, Res.ok_bind, Mat.isSameSizeAs_eq ha hq, decide_eq_false (by tauto)]
    rfl
  · rw [h, Res.ok_bind, Mat.isSameSizeAs_eq ha hq, decide_eq_true ⟨h1, h2⟩, ha.rows_eq, ha.cols_eq]
    exact ⟨_, Mat.init_of ha, Mat.zeros_of ha⟩

end

/-- C75: so it never solves the equation `A X Aᵀ - X + Q = 0`, except for `Q = 0`. -/
theorem C75_dlyap_wrong {K : Type} [Field K] [LinearOrder K] [IsStrictOrderedRing K] [Elementary K]
    {a q x : Mat (Ext K)} {n : Nat} {A Q X : Nat → Nat → K} (ha : MatIs a n n (fun i j => .fin (A i j)))
    (hq : MatIs q n n (fun i j => .fin (Q i j))) (h : a.dlyap q = .ok x)
    (hx : MatIs x n n (fun i j => .fin (X i j))) :
    toMatrix n n A * toMatrix n n X * (toMatrix n n A).transpose - toMatrix n n X + toMatrix n n Q = 0 ↔
      toMatrix n n Q = 0 := by
  have hX : toMatrix n n X = 0 := by
    obtain ⟨-, h2⟩ := C75_dlyap ha hq
    obtain ⟨h3, h4, h5, h6⟩ := h2 rfl
    rcases hp : q.isPositiveDefinite with e | b
    · rw [h3 e hp] at h; cases h
    · cases b
      · rw [h4 hp] at h; cases h
      · obtain ⟨x', e, hx'⟩ := h6 hp rfl rfl
        rw [h] at e
        cases e
        ext i j
        have h1 := hx.get i j i.2 j.2
        rw [hx'.get i j i.2 j.2] at h1
        have := Except.ok.inj h1
        rw [Ext.lit_zero] at this
        exact (Ext.fin.inj this).symm
  rw [hX]
  simp

/-! Concrete cases. -/

/-- The rotation by π/3 about the diagonal. -/
noncomputable def exLog : Mat XR := Mat.of 3 3 fun i j =>
  .fin (tbl [[2 / 3, -1 / 3, 2 / 3], [2 / 3, 2 / 3, -1 / 3], [-1 / 3, 2 / 3, 2 / 3]] i j)

theorem exLog_is : MatIs exLog 3 3 fun i j =>
    .fin (tbl [[2 / 3, -1 / 3, 2 / 3], [2 / 3, 2 / 3, -1 / 3], [-1 / 3, 2 / 3, 2 / 3]] i j) :=
  Mat.of_is _ (by omega) (by omega) (by omega) (by omega)

theorem exLog_det : exLog.det ≠ .error (.err .Singular) := by
  have he : epsilon ℝ = 1 / 10000 := by norm_num [epsilon]
  have hl := Linalg.lup_three exLog_is
    (forall_lt_three.mpr ⟨by rw [he]; norm_num [tbl], by rw [he]; norm_num [tbl], by rw [he]; norm_num [tbl]⟩)
    (fun p q hp hq hpq => by
      rw [he]
      have hp : p = 0 ∨ p = 1 ∨ p = 2 := by omega
      have hq : q = 0 ∨ q = 1 ∨ q = 2 := by omega
      rcases hp with rfl | rfl | rfl <;> rcases hq with rfl | rfl | rfl <;>
        first | exact absurd rfl hpq | norm_num [tbl, abs_div, abs_neg])
  rcases C25_det exLog_is with ⟨_, h⟩ | ⟨lu, p, _, σ, _, h⟩
  · exact absurd h hl
  · rw [h]; intro h'; cases h'

example : ∃ r r' B, exLog.log = .ok r ∧ Mat.logInPlace exLog = (.ok (), r') ∧
    MatIs r 3 3 (fun i j => .fin (B i j)) ∧ MatIs r' 3 3 (fun i j => .fin (B i j)) ∧
    toMatrix 3 3 B = (Real.pi / 3) • crossMat (1 / √3) (1 / √3) (1 / √3) := by
  have h3 : (0 : ℝ) < √3 := by positivity
  have hs : √3 * √3 = (3 : ℝ) := Real.mul_self_sqrt (by norm_num)
  refine C74_rodrigues exLog_is exLog_det ?_ (by positivity) (by linarith [Real.pi_pos]) ?_
  · rw [div_pow, Real.sq_sqrt (by norm_num)]; norm_num
  · ext i j
    rw [rodrigues, Real.sin_pi_div_three, Real.cos_pi_div_three]
    fin_cases i <;> fin_cases j <;>
      simp [crossMat, toMatrix, tbl, Matrix.mul_apply, Fin.sum_univ_three] <;>
      field_simp <;> rw [Real.sq_sqrt (by norm_num)] <;> norm_num

/-- The same rotation: the result is its adjugate. -/
example : ∃ r B, Mat.adjugateInPlace exLog = (.ok (), r) ∧ MatIs r 3 3 (fun i j => .fin (B i j)) ∧
    toMatrix 3 3 B = (toMatrix 3 3 (tbl [[2 / 3, -1 / 3, 2 / 3], [2 / 3, 2 / 3, -1 / 3],
      [-1 / 3, 2 / 3, 2 / 3]] : Nat → Nat → ℝ)).adjugate := by
  refine C75_adjugate_orthogonal exLog_is (by omega) exLog_det ?_
  ext i j
  fin_cases i <;> fin_cases j <;> simp [toMatrix, tbl, Matrix.mul_apply, Fin.sum_univ_three] <;> norm_num

example : ((Mat.of 2 2 fun i j => (.fin (tbl [[1, 2], [3, 4]] i j) : XQ)).dlyap
      (Mat.of 2 2 fun i j => (.fin (tbl [[4, 2], [2, 5]] i j) : XQ)) >>= fun x => x.getElement 1 1) =
    .ok (.fin 0) := by decide +kernel
example : ((Mat.of 2 1 fun i j => (.fin (tbl [[1, 2], [3, 4]] i j) : XQ)).dlyap
      (Mat.of 2 2 fun i j => (.fin (tbl [[4, 2], [2, 5]] i j) : XQ)) >>= fun x => x.getElement 1 1) =
    .error (.err .NotSquare) := by decide +kernel

end Verif
