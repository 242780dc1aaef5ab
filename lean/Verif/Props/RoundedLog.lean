import Verif.Props.MatrixLog
import Verif.Props.RoundedInterp
import Verif.Props.RoundedSo3

/-
Claim C123: the matrix logarithm in binary32.
-/

set_option linter.unusedSectionVars false
set_option linter.unusedSimpArgs false

namespace Verif
open Scalar Finset

/-- The factor of `log` for the sum `t` of the diagonal. -/
def logFactor {F : Type} [Scalar F] (t : F) : F :=
  Scalar.acos ((t -ᶠ lit 1) /ᶠ lit 2) /ᶠ (lit 2 *ᶠ Scalar.sin (Scalar.acos ((t -ᶠ lit 1) /ᶠ lit 2)))

section
variable {F : Type} [Scalar F] {a : Mat F} {n : Nat} {A : Nat → Nat → F}

/-- `log` and `log_in_place` come down to a multiplication of the difference by the factor. -/
theorem log_run (ha : MatIs a n n A) (hfin : ∀ i j, i < n → j < n → Finite (A i j)) {b : Bool} (hb : a.isSoN = .ok b)
    (hs : ∀ i j, i < n → j < n → Finite (A i j -ᶠ A j i)) :
    ∃ d1 d2, a.log = exec d1 (Mat.mulByScalarInPlace (logFactor (sumUp n fun i => A i i))) ∧
      Mat.logInPlace a = Mat.mulByScalarInPlace (logFactor (sumUp n fun i => A i i)) d2 ∧
      MatIs d1 n n (fun i j => A i j -ᶠ A j i) ∧ MatIs d2 n n (fun i j => A i j -ᶠ A j i) := by
  obtain ⟨t0, e0, h0⟩ := Mat.duplicate_ok ha hfin
  obtain ⟨t1, e1, h1⟩ := Mat.exec_transpose h0 hfin
  obtain ⟨d1, e2, k1⟩ := Mat.exec_of_stores (Mat.sub_stores (Mat.zeros_of ha) ha h1) (Mat.zeros_of ha) hs
  obtain ⟨d2, e3, k2⟩ := Mat.run_of_stores (Mat.subInPlace_stores ha h1) ha hs
  refine ⟨d1, d2, ?_, ?_, k1, k2⟩
  · unfold Mat.log
    simp only [hb, Mat.trace_eq ha, e0, e1, Mat.subNew_eq ha h1, e2, Res.ok_bind]
    rfl
  · unfold Mat.logInPlace
    simp only [Op.get_bind, hb, Mat.trace_eq ha, e0, e1, Op.liftOk_bind]
    rw [Op.bind_ok e3]
    rfl

/-- When the product of the first element of the diagonal is NaN, both fail. -/
theorem log_nan (ha : MatIs a n n A) (hfin : ∀ i j, i < n → j < n → Finite (A i j)) {b : Bool} (hb : a.isSoN = .ok b)
    (hs : ∀ i j, i < n → j < n → Finite (A i j -ᶠ A j i))
    (hn : Scalar.isNaN ((A 0 0 -ᶠ A 0 0) *ᶠ logFactor (sumUp n fun i => A i i)) = true) :
    a.log = .error (.err (.UtilsError .Nan)) ∧
      ∃ r, Mat.logInPlace a = (.error (.err (.UtilsError .Nan)), r) ∧ MatIs r n n (fun i j => A i j -ᶠ A j i) := by
  obtain ⟨d1, d2, f1, f2, l1, l2⟩ := log_run ha hfin hb hs
  have hp := ha.rpos
  have bad : ¬Finite ((A 0 0 -ᶠ A 0 0) *ᶠ logFactor (sumUp n fun i => A i i)) := fun h => by
    rw [h.1] at hn
    cases hn
  have r1 := (Mat.mulByScalarInPlace_stores (x := logFactor (sumUp n fun i => A i i)) l1).2 0 0 hp hp
    (fun i j _ _ h => by omega) bad
  have r2 := (Mat.mulByScalarInPlace_stores (x := logFactor (sumUp n fun i => A i i)) l2).2 0 0 hp hp
    (fun i j _ _ h => by omega) bad
  have o : d2.overwrite (0 * n + 0) (fun i j => (A i j -ᶠ A j i) *ᶠ logFactor (sumUp n fun i => A i i)) = d2 := by
    simp [Mat.overwrite]
  refine ⟨?_, d2, ?_, l2⟩
  · rw [f1, exec, r1]
    simp [valueErr, hn]
  · rw [f2, r2]
    simp only [valueErr, hn, if_true]
    exact Prod.ext rfl o

end

variable {F : Type} [Scalar F] [R : Rounded F]
variable {a : Mat F} {A : Nat → Nat → F}

/-- The computed cosine. -/
theorem log_cos (hfin : ∀ i j, i < 3 → j < 3 → Finite (A i j))
    (hb : ∀ i j, i < 3 → j < 3 → |⟪A i j⟫| ≤ 1001 / 1000) :
    Apx (((sumUp 3 fun i => A i i) -ᶠ lit 1) /ᶠ lit 2) ((⟪A 0 0⟫ + ⟪A 1 1⟫ + ⟪A 2 2⟫ - 1) / 2) (8 / 10 ^ 7) := by
  have hη := rη_le
  have b0 := hb 0 0 (by omega) (by omega)
  have b1 := hb 1 1 (by omega) (by omega)
  have b2 := hb 2 2 (by omega) (by omega)
  have s1 := (Apx.zero (F := F)).add (Apx.exact (hfin 0 0 (by omega) (by omega))) (B := 1001 / 1000)
    (by rw [zero_add]; exact b0) (by norm_num)
  have s1 : Apx (lit 0 +ᶠ A 0 0) (0 + ⟪A 0 0⟫) (6 / 10 ^ 8) := s1.mono (by norm_num at hη ⊢; linarith)
  have B1 : |0 + ⟪A 0 0⟫ + ⟪A 1 1⟫| ≤ 2002 / 1000 := by
    rw [zero_add]
    exact (abs_add_le _ _).trans (by linarith)
  have s2 := s1.add (Apx.exact (hfin 1 1 (by omega) (by omega))) B1 (by norm_num)
  have s2 := s2.mono (e' := 18 / 10 ^ 8) (by norm_num at hη ⊢; linarith)
  have B2 : |0 + ⟪A 0 0⟫ + ⟪A 1 1⟫ + ⟪A 2 2⟫| ≤ 3003 / 1000 := (abs_add_le _ _).trans (by linarith)
  have s3 := s2.add (Apx.exact (hfin 2 2 (by omega) (by omega))) B2 (by norm_num)
  have s3 := s3.mono (e' := 37 / 10 ^ 8) (by norm_num at hη ⊢; linarith)
  have B3 : |0 + ⟪A 0 0⟫ + ⟪A 1 1⟫ + ⟪A 2 2⟫ - 1| ≤ 4003 / 1000 := (abs_sub _ _).trans (by rw [abs_one]; linarith)
  have s4 := s3.sub (Apx.one (F := F)) B3 (by norm_num)
  have s4 := s4.mono (e' := 62 / 10 ^ 8) (by norm_num at hη ⊢; linarith)
  have s5 := s4.div (Apx.two (F := F)) (m := 2) (c := 2002 / 1000) (E := 31 / 10 ^ 8) le_rfl (by norm_num)
    (by rw [abs_div, abs_two]; linarith) (by norm_num) (by norm_num)
  rw [zero_add] at s5
  exact s5.mono (by norm_num at hη ⊢; linarith)

/-- The factor of `log`. -/
theorem log_factor_apx [Trig F] [Acos F] {t : F} {d S : ℝ} (ht : Apx ((t -ᶠ lit 1) /ᶠ lit 2) d (8 / 10 ^ 7))
    (hS : S = √(1 - d ^ 2)) (h : 1 / 50 ≤ S) :
    Apx (logFactor t) (Real.arccos d / (2 * S)) (74 / 10 ^ 7 / S ^ 3) ∧ |Real.arccos d / (2 * S)| ≤ 158 / 100 / S ∧
      S ≤ 1 := by
  have hη := rη_le
  have hS0 : 0 < S := by linarith
  have hS2 : S ^ 2 = 1 - d ^ 2 := by
    rw [hS]
    refine Real.sq_sqrt ?_
    by_contra hn
    rw [hS, Real.sqrt_eq_zero_of_nonpos (not_le.mp hn).le] at hS0
    exact lt_irrefl _ hS0
  have hS1 : S ≤ 1 := by nlinarith [sq_nonneg d]
  obtain ⟨r, hr⟩ : ∃ r, r = 1 / S := ⟨_, rfl⟩
  have hr1 : 1 ≤ r := by rw [hr]; exact (one_le_div hS0).mpr hS1
  have hr2 : r ≤ 50 := by rw [hr, div_le_iff₀ hS0]; linarith
  have hSr : S = 1 / r := by rw [hr]; simp
  have hr0 : 0 < r := by linarith
  have a1 := slerp_angle ht hS h
  have ea : 31 / 10 ^ 7 / S = 31 / 10 ^ 7 * r := by rw [hr]; ring
  rw [ea] at a1
  have hθ : |Real.arccos d| ≤ 315 / 100 := by
    rw [abs_of_nonneg (Real.arccos_nonneg _)]
    have := Real.arccos_le_pi d
    have := Real.pi_lt_d2
    norm_num at *
    linarith
  have hsin : Real.sin (Real.arccos d) = S := by rw [Real.sin_arccos, hS]
  have s1 : Apx (Scalar.sin (Scalar.acos ((t -ᶠ lit 1) /ᶠ lit 2))) S (34 / 10 ^ 7 * r) := by
    refine ⟨Trig.sin_finite a1.1, ?_⟩
    have h1 := Trig.sin_near a1.1
    have h2 := (Real.abs_sin_sub_sin_le _ _).trans a1.2
    rw [hsin] at h2
    refine (dist_trans h1 h2).trans ?_
    norm_num
    linarith
  have s2 := (Apx.two (F := F)).mul s1 (A := 2) (B := 1) (by simp) (by rw [abs_of_pos hS0]; exact hS1)
    (by norm_num; linarith)
  have s2 : Apx (lit 2 *ᶠ Scalar.sin (Scalar.acos ((t -ᶠ lit 1) /ᶠ lit 2))) (2 * S) (70 / 10 ^ 7 * r) :=
    s2.mono (by norm_num at hη ⊢; linarith)
  have r2 : r ^ 2 ≤ 2500 := by nlinarith
  have r2' : r ≤ r ^ 2 := by nlinarith
  have r3 : r ≤ r ^ 3 := by nlinarith
  have r3' : r ^ 3 ≤ 125000 := by nlinarith
  have hc : |Real.arccos d / (2 * S)| ≤ 158 / 100 * r := by
    rw [abs_div, abs_of_pos (show (0 : ℝ) < 2 * S by linarith), div_le_iff₀ (by linarith)]
    have : r * S = 1 := by rw [hSr]; field_simp
    rw [show 158 / 100 * r * (2 * S) = 316 / 100 * (r * S) by ring, this]
    linarith
  have q1 := a1.div s2 (m := 2 * S) (c := 158 / 100 * r) (E := 72 / 10 ^ 7 * r ^ 3) le_rfl ?_ hc ?_ ?_
  · have e3 : 74 / 10 ^ 7 / S ^ 3 = 74 / 10 ^ 7 * r ^ 3 := by rw [hr]; ring
    refine ⟨?_, by rw [hr] at hc; convert hc using 1; ring, hS1⟩
    rw [e3]
    refine q1.mono ?_
    norm_num at hη ⊢
    linarith
  · rw [hSr, show 2 * (1 / r) = 2 / r by ring, lt_div_iff₀ hr0]
    nlinarith
  · have e : 72 / 10 ^ 7 * r ^ 3 * (2 * S - 70 / 10 ^ 7 * r) = 72 / 10 ^ 7 * r ^ 2 * (2 - 70 / 10 ^ 7 * r ^ 2) := by
      rw [hSr]; field_simp
    rw [e]
    have h7 : 72 / 10 ^ 7 * r ^ 2 * (198 / 100) ≤ 72 / 10 ^ 7 * r ^ 2 * (2 - 70 / 10 ^ 7 * r ^ 2) :=
      mul_le_mul_of_nonneg_left (by norm_num; linarith) (by positivity)
    refine le_trans ?_ h7
    have h8 : 158 / 100 * r * (70 / 10 ^ 7 * r) = 1106 / 10 ^ 8 * r ^ 2 := by ring
    rw [h8]
    norm_num
    linarith
  · norm_num
    linarith

/-- C123: `log` and `log_in_place` of a 3×3 matrix in binary32, whether it is a rotation or not: with `T` the half of the
trace less one, at distance from ±1 such that `S = √(1 - T²)` is at least 1/50, the result is `arccos T / (2 S)` times
`A - Aᵀ`, up to the relative error `8·10⁻⁶ / S³`; provided that `det` does not fail with `Singular`, which is passed on. -/
theorem C123_log [Trig F] [Acos F] (ha : MatIs a 3 3 A) (hfin : ∀ i j, i < 3 → j < 3 → Finite (A i j))
    (hb : ∀ i j, i < 3 → j < 3 → |⟪A i j⟫| ≤ 1001 / 1000) {T S : ℝ} (hT : T = (⟪A 0 0⟫ + ⟪A 1 1⟫ + ⟪A 2 2⟫ - 1) / 2)
    (hS : S = √(1 - T ^ 2)) (h : 1 / 50 ≤ S) :
    (a.det = .error (.err .Singular) ∧ a.log = .error (.err .Singular) ∧
      Mat.logInPlace a = (.error (.err .Singular), a)) ∨
    ∃ r r' B, a.log = .ok r ∧ Mat.logInPlace a = (.ok (), r') ∧ MatIs r 3 3 B ∧ MatIs r' 3 3 B ∧
      ∀ i j, i < 3 → j < 3 → Finite (B i j) ∧
        |⟪B i j⟫ - Real.arccos T / (2 * S) * (⟪A i j⟫ - ⟪A j i⟫)| ≤
          8 / 10 ^ 6 / S ^ 3 * |⟪A i j⟫ - ⟪A j i⟫| + 1 / 10 ^ 40 := by
  obtain ⟨q, hq, hmax, ⟨h1, h2⟩ | ⟨d, h1, h2, -, -⟩⟩ := C122_det ha hfin hb
  · exact .inl ⟨h1, C74_fail h1⟩
  obtain ⟨b, e, -, -⟩ := mulT_run ha hfin (fun i j hi hj => (hb i j hi hj).trans (by norm_num))
  obtain ⟨s1, -⟩ := soN_of h1 h2 ha.rows_eq e
  have hη := rη_le
  have hη0 := rη_pos
  have hd : ∀ i j, i < 3 → j < 3 → |⟪A i j⟫ - ⟪A j i⟫| ≤ 2002 / 1000 := fun i j hi hj =>
    (abs_sub _ _).trans (by linarith [hb i j hi hj, hb j i hj hi])
  have hs : ∀ i j, i < 3 → j < 3 →
      Apx (A i j -ᶠ A j i) (⟪A i j⟫ - ⟪A j i⟫) (|⟪A i j⟫ - ⟪A j i⟫| / 16777216 + rη) := fun i j hi hj => by
    have := (Apx.exact (hfin i j hi hj)).sub (Apx.exact (hfin j i hj hi)) le_rfl
      (by have := hd i j hi hj; norm_num; linarith)
    exact this.mono (by simp)
  obtain ⟨d1, d2, f1, f2, l1, l2⟩ := log_run ha hfin s1 (fun i j hi hj => (hs i j hi hj).1)
  have hc := log_cos hfin hb
  rw [← hT] at hc
  obtain ⟨hw, hwb, hS1⟩ := log_factor_apx hc hS h
  have hS0 : 0 < S := by linarith
  obtain ⟨r, hr⟩ : ∃ r, r = 1 / S := ⟨_, rfl⟩
  have hr1 : 1 ≤ r := by rw [hr]; exact (one_le_div hS0).mpr hS1
  have hr2 : r ≤ 50 := by rw [hr, div_le_iff₀ hS0]; linarith
  have r3 : r ≤ r ^ 3 := by nlinarith [sq_nonneg r]
  have r3' : r ^ 3 ≤ 125000 := by
    calc r ^ 3 ≤ 50 ^ 3 := pow_le_pow_left₀ (by linarith) hr2 3
      _ = 125000 := by norm_num
  rw [show 74 / 10 ^ 7 / S ^ 3 = 74 / 10 ^ 7 * r ^ 3 by rw [hr]; ring] at hw
  rw [show 158 / 100 / S = 158 / 100 * r by rw [hr]; ring] at hwb
  have key : ∀ i j, i < 3 → j < 3 → Apx ((A i j -ᶠ A j i) *ᶠ logFactor (sumUp 3 fun i => A i i))
      ((⟪A i j⟫ - ⟪A j i⟫) * (Real.arccos T / (2 * S))) (8 / 10 ^ 6 * r ^ 3 * |⟪A i j⟫ - ⟪A j i⟫| + 1 / 10 ^ 40) :=
    fun i j hi hj => by
      have hD := hd i j hi hj
      have hD0 := abs_nonneg (⟪A i j⟫ - ⟪A j i⟫)
      have hm := (hs i j hi hj).mul hw le_rfl hwb ?_
      · refine hm.mono ?_
        generalize |⟪A i j⟫ - ⟪A j i⟫| = D at *
        have k1 : D * r ≤ D * r ^ 3 := mul_le_mul_of_nonneg_left r3 hD0
        have k2 : D * r ^ 3 ≤ 2002 / 1000 * 125000 := mul_le_mul hD r3' (by positivity) (by norm_num)
        have k3 : rη * r ≤ rη * 50 := mul_le_mul_of_nonneg_left hr2 hη0.le
        have k4 : rη * r ^ 3 ≤ rη * 125000 := mul_le_mul_of_nonneg_left r3' hη0.le
        have k5 : 0 ≤ D * r := by positivity
        ring_nf at k1 k2 k3 k4 k5 ⊢
        norm_num at hη
        generalize D * r = x at *
        generalize D * r ^ 3 = y at *
        generalize rη * r = z at *
        generalize rη * r ^ 3 = w at *
        linarith
      · generalize |⟪A i j⟫ - ⟪A j i⟫| = D at *
        have k1 : D * r ≤ D * r ^ 3 := mul_le_mul_of_nonneg_left r3 hD0
        have k2 : D * r ^ 3 ≤ 2002 / 1000 * 125000 := mul_le_mul hD r3' (by positivity) (by norm_num)
        have k3 : rη * r ≤ rη * 50 := mul_le_mul_of_nonneg_left hr2 hη0.le
        have k4 : rη * r ^ 3 ≤ rη * 125000 := mul_le_mul_of_nonneg_left r3' hη0.le
        have k5 : 0 ≤ D * r := by positivity
        ring_nf at k1 k2 k3 k4 k5 ⊢
        norm_num at hη
        generalize D * r = x at *
        generalize D * r ^ 3 = y at *
        generalize rη * r = z at *
        generalize rη * r ^ 3 = w at *
        linarith
  have g1 := Mat.mulByScalarInPlace_stores (x := logFactor (sumUp 3 fun i => A i i)) l1
  have g2 := Mat.mulByScalarInPlace_stores (x := logFactor (sumUp 3 fun i => A i i)) l2
  obtain ⟨o, er, ho⟩ := Mat.exec_of_stores g1 l1 (fun i j hi hj => (key i j hi hj).1)
  obtain ⟨o', er', ho'⟩ := Mat.run_of_stores g2 l2 (fun i j hi hj => (key i j hi hj).1)
  refine .inr ⟨o, o', _, by rw [f1, er], by rw [f2, er'], ho, ho', fun i j hi hj => ⟨(key i j hi hj).1, ?_⟩⟩
  rw [mul_comm (Real.arccos T / (2 * S)), show 8 / 10 ^ 6 / S ^ 3 = 8 / 10 ^ 6 * r ^ 3 by rw [hr]; ring]
  exact (key i j hi hj).2

/-- Real-number part of `C123_rodrigues`. -/
theorem rod_acc {T θ θ' S S' d K e : ℝ} (he0 : 0 ≤ e) (he : e ≤ 1 / 10 ^ 5) (hS : 1 / 20 ≤ S) (hS1 : S ≤ 1)
    (hc : S ^ 2 + Real.cos θ ^ 2 = 1) (hT : |T - Real.cos θ| ≤ 3 / 2 * e) (hS' : S' = √(1 - T ^ 2)) (h0 : 0 ≤ θ)
    (hπ : θ ≤ Real.pi) (hθ : θ' = Real.arccos T) (hK : |K| ≤ 1) (hd : |d - 2 * S * K| ≤ 2 * e) :
    1 / 50 ≤ S' ∧ 99 / 100 * S ≤ S' ∧
      |θ' / (2 * S') * d - θ * K| ≤ 13 * e / S ^ 2 ∧ 8 / 10 ^ 6 / S' ^ 3 * |d| + 1 / 10 ^ 40 ≤ 17 / 10 ^ 6 / S ^ 2 := by
  have hS0 : 0 < S := by linarith
  have hcos : |Real.cos θ| ≤ 1 := Real.abs_cos_le_one θ
  have hcl : |Real.cos θ| < 1 := by
    rw [← sq_lt_one_iff_abs_lt_one]
    nlinarith
  have hT2 : |T ^ 2 - Real.cos θ ^ 2| ≤ 301 / 100 * e := by
    rw [show T ^ 2 - Real.cos θ ^ 2 = (T - Real.cos θ) * (T - Real.cos θ + 2 * Real.cos θ) by ring]
    have : |T - Real.cos θ + 2 * Real.cos θ| ≤ 200002 / 100000 := by
      refine (abs_add_le _ _).trans ?_
      rw [abs_mul, abs_two]
      norm_num at he
      linarith
    refine (mul_le_of hT this).trans ?_
    linarith
  have hlow : (99 / 100 * S) ^ 2 ≤ 1 - T ^ 2 := by
    have := (abs_le.mp hT2).2
    norm_num at he
    nlinarith
  have hS'1 : 99 / 100 * S ≤ S' := by
    rw [hS']
    exact Real.le_sqrt_of_sq_le hlow
  have hSq : S' ^ 2 = 1 - T ^ 2 := by rw [hS']; exact Real.sq_sqrt (le_trans (by positivity) hlow)
  have hS'0 : 0 < S' := by linarith
  have hS'2 : 993 / 1000 * S ≤ S' := by
    have := (abs_le.mp hT2).2
    have h1 : (993 / 1000 * S) ^ 2 ≤ S' ^ 2 := by
      rw [hSq]
      norm_num at he
      nlinarith
    exact le_of_sq_le_sq h1 hS'0.le
  have hT1 : |T| ≤ 1 := by
    rw [← sq_le_one_iff_abs_le_one]
    nlinarith
  have hdS : |S - S'| ≤ 152 / 100 * e / S := by
    have h1 : (S - S') * (S + S') = T ^ 2 - Real.cos θ ^ 2 := by linear_combination hc - hSq
    have h2 : |S - S'| * (S + S') ≤ 301 / 100 * e := by
      rw [← abs_of_pos (show 0 < S + S' by linarith), ← abs_mul, h1]
      exact hT2
    rw [le_div_iff₀ hS0]
    have h3 := abs_nonneg (S - S')
    have h4 : |S - S'| * (1993 / 1000 * S) ≤ |S - S'| * (S + S') := mul_le_mul_of_nonneg_left (by linarith) h3
    linarith
  have hdθ : |θ' - θ| ≤ 473 / 100 * e / S := by
    have hp := arcsin_perturb hcl hT1 hT
    have hs : √(1 - Real.cos θ ^ 2) = S := by
      rw [show 1 - Real.cos θ ^ 2 = S ^ 2 by linarith]
      exact Real.sqrt_sq hS0.le
    rw [hs] at hp
    have e1 : θ' - θ = -(Real.arcsin T - Real.arcsin (Real.cos θ)) := by
      have : θ = Real.arccos (Real.cos θ) := (Real.arccos_cos h0 hπ).symm
      rw [hθ]
      conv_lhs => rw [this]
      rw [Real.arccos, Real.arccos]
      ring
    rw [e1, abs_neg]
    refine hp.trans ?_
    have h1 := Real.pi_lt_d2
    have h2 : Real.pi * (3 / 2 * e) ≤ 473 / 100 * e := by
      norm_num at h1
      nlinarith
    exact div_le_div_of_nonneg_right h2 hS0.le
  have hθb : |θ'| ≤ 315 / 100 := by
    rw [hθ, abs_of_nonneg (Real.arccos_nonneg _)]
    have := Real.arccos_le_pi T
    have := Real.pi_lt_d2
    norm_num at *
    linarith
  have hθb2 : |θ| ≤ 315 / 100 := by
    rw [abs_of_nonneg h0]
    have := Real.pi_lt_d2
    norm_num at *
    linarith
  refine ⟨by linarith, hS'1, ?_, ?_⟩
  · have key : θ' / (2 * S') * d - θ * K =
        (θ' * ((d - 2 * S * K) / 2) + K * ((θ' - θ) * S + θ * (S - S'))) / S' := by
      field_simp
      ring
    rw [key, abs_div, abs_of_pos hS'0, div_le_div_iff₀ hS'0 (by positivity)]
    have n1 : |θ' * ((d - 2 * S * K) / 2)| ≤ 315 / 100 * e :=
      mul_le_of hθb (by rw [abs_div, abs_two]; linarith)
    have n2 : |(θ' - θ) * S| ≤ 473 / 100 * e := by
      rw [abs_mul, abs_of_pos hS0, ← le_div_iff₀ hS0]
      exact hdθ
    have n3 : |θ * (S - S')| ≤ 315 / 100 * (152 / 100 * e / S) := mul_le_of hθb2 hdS
    have n4 : |K * ((θ' - θ) * S + θ * (S - S'))| ≤ 1 * (473 / 100 * e + 315 / 100 * (152 / 100 * e / S)) :=
      mul_le_of hK ((abs_add_le _ _).trans (add_le_add n2 n3))
    have n5 := (abs_add_le (θ' * ((d - 2 * S * K) / 2)) (K * ((θ' - θ) * S + θ * (S - S')))).trans (add_le_add n1 n4)
    have n6 : 315 / 100 * (152 / 100 * e / S) * S = 315 / 100 * (152 / 100) * e := by field_simp
    have n7 : |θ' * ((d - 2 * S * K) / 2) + K * ((θ' - θ) * S + θ * (S - S'))| * S ≤ 1268 / 100 * e := by
      refine (mul_le_mul_of_nonneg_right n5 hS0.le).trans ?_
      have : e * S ≤ e := mul_le_of_le_one_right he0 hS1
      rw [add_mul, one_mul, add_mul, n6]
      linarith
    calc _ = |θ' * ((d - 2 * S * K) / 2) + K * ((θ' - θ) * S + θ * (S - S'))| * S * S := by ring
      _ ≤ 1268 / 100 * e * S := mul_le_mul_of_nonneg_right n7 hS0.le
      _ ≤ 1268 / 100 * e * (S' / (993 / 1000)) := by
        refine mul_le_mul_of_nonneg_left ?_ (by positivity)
        rw [le_div_iff₀ (by norm_num)]
        linarith
      _ ≤ 13 * e * S' := by
        have : 0 ≤ e * S' := by positivity
        linarith
  · have hdb : |d| ≤ 20005 / 10000 * S := by
      have h1 : |2 * S * K| ≤ 2 * S * 1 := by
        rw [abs_mul, abs_of_pos (show 0 < 2 * S by linarith)]
        exact mul_le_mul_of_nonneg_left hK (by linarith)
      have h2 := le_of_dist h1 hd
      norm_num at he
      linarith
    have h3 : (993 / 1000 * S) ^ 3 ≤ S' ^ 3 := pow_le_pow_left₀ (by positivity) hS'2 3
    have h4 : 8 / 10 ^ 6 / S' ^ 3 * |d| ≤ 8 / 10 ^ 6 / (993 / 1000 * S) ^ 3 * (20005 / 10000 * S) := by
      gcongr
    have h5 : 8 / 10 ^ 6 / (993 / 1000 * S) ^ 3 * (20005 / 10000 * S) =
        8 / 10 ^ 6 * (20005 / 10000) / (993 / 1000) ^ 3 / S ^ 2 := by field_simp
    have h6 : (1 : ℝ) ≤ 1 / S ^ 2 := (one_le_div (by positivity)).mpr (by nlinarith)
    rw [h5] at h4
    refine (add_le_add_left h4 _).trans ?_
    rw [div_eq_mul_one_div _ (S ^ 2), div_eq_mul_one_div (17 / 10 ^ 6) (S ^ 2)]
    generalize 1 / S ^ 2 = z at *
    norm_num
    linarith

/-- C123: `log` of a matrix near the rotation by `θ` about the unit vector `(x, y, z)`, within `e` of it, is `θ` times the
matrix of the cross product with this vector up to `(13 e + 17·10⁻⁶) / sin² θ`, for `sin θ` from 1/20 on. -/
theorem C123_rodrigues [Trig F] [Acos F] {θ x y z e : ℝ} (ha : MatIs a 3 3 A)
    (hfin : ∀ i j, i < 3 → j < 3 → Finite (A i j)) (hu : x ^ 2 + y ^ 2 + z ^ 2 = 1) (h0 : 0 ≤ θ) (hπ : θ ≤ Real.pi)
    (hs : 1 / 20 ≤ Real.sin θ) (he : e ≤ 1 / 10 ^ 5) (hA : ∀ i j : Fin 3, |⟪A i j⟫ - rodrigues θ x y z i j| ≤ e) :
    (a.det = .error (.err .Singular) ∧ a.log = .error (.err .Singular) ∧
      Mat.logInPlace a = (.error (.err .Singular), a)) ∨
    ∃ r r' B, a.log = .ok r ∧ Mat.logInPlace a = (.ok (), r') ∧ MatIs r 3 3 B ∧ MatIs r' 3 3 B ∧
      ∀ i j : Fin 3, Finite (B i j) ∧
        |⟪B i j⟫ - θ * crossMat x y z i j| ≤ (13 * e + 17 / 10 ^ 6) / Real.sin θ ^ 2 := by
  have he0 : 0 ≤ e := (abs_nonneg _).trans (hA 0 0)
  have hsc := Real.sin_sq_add_cos_sq θ
  have hR : ∀ i j : Fin 3, rodrigues θ x y z i j - rodrigues θ x y z j i = 2 * Real.sin θ * crossMat x y z i j := by
    intro i j
    fin_cases i <;> fin_cases j <;> simp [rodrigues, crossMat, Matrix.mul_apply, Fin.sum_univ_three] <;> ring
  have htr : rodrigues θ x y z 0 0 + rodrigues θ x y z 1 1 + rodrigues θ x y z 2 2 = 2 * Real.cos θ + 1 := by
    simp [rodrigues, crossMat, Matrix.mul_apply, Fin.sum_univ_three]
    linear_combination (2 * Real.cos θ - 2) * hu
  have hrow : ∀ i j : Fin 3, |rodrigues θ x y z i j| ≤ 1 := by
    have horth : ∀ i : Fin 3, rodrigues θ x y z i 0 ^ 2 + rodrigues θ x y z i 1 ^ 2 + rodrigues θ x y z i 2 ^ 2 = 1 := by
      intro i
      fin_cases i <;> simp [rodrigues, crossMat, Matrix.mul_apply, Fin.sum_univ_three]
      · linear_combination (1 - Real.cos θ) ^ 2 * (y ^ 2 + z ^ 2) * hu + (y ^ 2 + z ^ 2) * hsc
      · linear_combination (1 - Real.cos θ) ^ 2 * (x ^ 2 + z ^ 2) * hu + (x ^ 2 + z ^ 2) * hsc
      · linear_combination (1 - Real.cos θ) ^ 2 * (x ^ 2 + y ^ 2) * hu + (x ^ 2 + y ^ 2) * hsc
    intro i j
    have := horth i
    rw [← sq_le_one_iff_abs_le_one]
    fin_cases j <;> simp only [Fin.zero_eta, Fin.mk_one, Fin.reduceFinMk] <;> nlinarith [sq_nonneg (rodrigues θ x y z i 0), sq_nonneg (rodrigues θ x y z i 1), sq_nonneg (rodrigues θ x y z i 2)]
  have hK : ∀ i j : Fin 3, |crossMat x y z i j| ≤ 1 := by
    have hx : |x| ≤ 1 := by rw [← sq_le_one_iff_abs_le_one]; nlinarith
    have hy : |y| ≤ 1 := by rw [← sq_le_one_iff_abs_le_one]; nlinarith
    have hz : |z| ≤ 1 := by rw [← sq_le_one_iff_abs_le_one]; nlinarith
    intro i j
    fin_cases i <;> fin_cases j <;> simp [crossMat, hx, hy, hz]
  have hb : ∀ i j, i < 3 → j < 3 → |⟪A i j⟫| ≤ 1001 / 1000 := fun i j hi hj => by
    have := le_of_dist (hrow ⟨i, hi⟩ ⟨j, hj⟩) (hA ⟨i, hi⟩ ⟨j, hj⟩)
    norm_num at he
    simp only at this
    linarith
  have hT : |(⟪A 0 0⟫ + ⟪A 1 1⟫ + ⟪A 2 2⟫ - 1) / 2 - Real.cos θ| ≤ 3 / 2 * e := by
    have t0 := hA 0 0
    have t1 := hA 1 1
    have t2 := hA 2 2
    simp only [Fin.val_zero, Fin.val_one, Fin.val_two] at t0 t1 t2
    rw [abs_le] at *
    constructor <;> linarith
  have hmain := fun i j : Fin 3 => rod_acc (d := ⟪A i j⟫ - ⟪A j i⟫) he0 he hs (Real.sin_le_one θ) hsc hT rfl h0 hπ rfl
    (hK i j) (by
      rw [← hR]
      have t0 := hA i j
      have t1 := hA j i
      rw [abs_le] at *
      constructor <;> linarith)
  rcases C123_log ha hfin hb rfl rfl (hmain 0 0).1 with h | ⟨r, r', B, e1, e2, k1, k2, k3⟩
  · exact .inl h
  refine .inr ⟨r, r', B, e1, e2, k1, k2, fun i j => ⟨(k3 i j i.2 j.2).1, ?_⟩⟩
  refine (dist_trans (k3 i j i.2 j.2).2 (hmain i j).2.2.1).trans ?_
  rw [add_div, add_comm]
  exact add_le_add le_rfl (hmain i j).2.2.2

/-- The rotation matrix of the unit quaternion of a rotation. -/
theorem dcm_rodrigues {θ x y z : ℝ} (hu : x ^ 2 + y ^ 2 + z ^ 2 = 1) (i j : Fin 3) :
    dcmOf (mkQ (Real.cos (θ / 2)) (x * Real.sin (θ / 2)) (y * Real.sin (θ / 2)) (z * Real.sin (θ / 2))) i j =
      rodrigues θ x y z i j := by
  have hs : Real.sin θ = 2 * Real.sin (θ / 2) * Real.cos (θ / 2) := by
    rw [← Real.sin_two_mul]; congr 1; ring
  have hc : Real.cos θ = 1 - 2 * Real.sin (θ / 2) ^ 2 := by
    have h := Real.cos_two_mul (θ / 2)
    have h2 := Real.sin_sq_add_cos_sq (θ / 2)
    rw [show 2 * (θ / 2) = θ by ring] at h
    linarith
  have h2 := Real.sin_sq_add_cos_sq (θ / 2)
  fin_cases i <;> fin_cases j <;>
    simp [dcmOf, tbl, mkQ, rodrigues, crossMat, Matrix.mul_apply, Fin.sum_univ_three, hs, hc]
  · linear_combination h2 + Real.sin (θ / 2) ^ 2 * hu
  all_goals ring

/-- A product of perturbed components. -/
theorem prod_pert {a b p q : ℝ} (hp : |p| ≤ 1) (hq : |q| ≤ 1) (ha : |a - p| ≤ 1 / 10 ^ 6) (hb : |b - q| ≤ 1 / 10 ^ 6) :
    |a * b - p * q| ≤ 200001 / 10 ^ 11 := by
  rw [show a * b - p * q = p * (b - q) + (a - p) * q + (a - p) * (b - q) by ring]
  have h1 := mul_le_of hp hb
  have h2 := mul_le_of ha hq
  have h3 := mul_le_of ha hb
  refine (abs_add_le _ _).trans ((add_le_add ((abs_add_le _ _).trans (add_le_add h1 h2)) h3).trans ?_)
  norm_num

/-- The rotation matrix of a perturbed unit quaternion. -/
theorem dcm_pert {q p : Quaternion ℝ} (hp : ‖p‖ = 1) (h : ‖q - p‖ ≤ 1 / 10 ^ 6) (i j : Nat) (hi : i < 3) (hj : j < 3) :
    |dcmOf q i j - dcmOf p i j| ≤ 8001 / 10 ^ 9 := by
  have c : ∀ u : Quaternion ℝ, |u.re| ≤ ‖u‖ ∧ |u.imI| ≤ ‖u‖ ∧ |u.imJ| ≤ ‖u‖ ∧ |u.imK| ≤ ‖u‖ := fun u => by
    have hn : ‖u‖ ^ 2 = u.re ^ 2 + u.imI ^ 2 + u.imJ ^ 2 + u.imK ^ 2 := by
      rw [← Quaternion.normSq_def', Quaternion.normSq_eq_norm_mul_self, sq]
    refine ⟨?_, ?_, ?_, ?_⟩ <;> refine abs_le_of_sq_le_sq ?_ (norm_nonneg _) <;> rw [hn] <;> nlinarith [sq_nonneg u.re, sq_nonneg u.imI, sq_nonneg u.imJ, sq_nonneg u.imK]
  obtain ⟨p0, p1, p2, p3⟩ := c p
  obtain ⟨d0, d1, d2, d3⟩ := c (q - p)
  rw [hp] at p0 p1 p2 p3
  have d0 := d0.trans h
  have d1 := d1.trans h
  have d2 := d2.trans h
  have d3 := d3.trans h
  simp only [Quaternion.re_sub, Quaternion.imI_sub, Quaternion.imJ_sub, Quaternion.imK_sub] at d0 d1 d2 d3
  have m00 := prod_pert p0 p0 d0 d0
  have m01 := prod_pert p0 p1 d0 d1
  have m02 := prod_pert p0 p2 d0 d2
  have m03 := prod_pert p0 p3 d0 d3
  have m11 := prod_pert p1 p1 d1 d1
  have m12 := prod_pert p1 p2 d1 d2
  have m13 := prod_pert p1 p3 d1 d3
  have m22 := prod_pert p2 p2 d2 d2
  have m23 := prod_pert p2 p3 d2 d3
  have m33 := prod_pert p3 p3 d3 d3
  have hi : i = 0 ∨ i = 1 ∨ i = 2 := by omega
  have hj : j = 0 ∨ j = 1 ∨ j = 2 := by omega
  clear d0 d1 d2 d3 p0 p1 p2 p3 h hp c
  rw [abs_le] at m00 m01 m02 m03 m11 m12 m13 m22 m23 m33
  rcases hi with rfl | rfl | rfl <;> rcases hj with rfl | rfl | rfl <;> simp [dcmOf, tbl] <;> rw [abs_le] <;>
    norm_num at m00 m01 m02 m03 m11 m12 m13 m22 m23 m33 <;> constructor <;> linarith

/-- C123: from a quaternion to the rotation vector.  For a quaternion within `10⁻⁶` of the one of the rotation by `θ`
about the unit vector `(x, y, z)`, `log` of `convert_to_dcm` is `θ` times the matrix of the cross product with this vector
up to `14·10⁻⁵ / sin² θ`, or both `det` and `log` fail with `Singular`. -/
theorem C123_quaternion [Trig F] [Acos F] {v : Vec F} {f : Nat → F} {θ x y z : ℝ} (hv : VecIs v 4 f)
    (hf : ∀ i, i < 4 → Finite (f i)) (hu : x ^ 2 + y ^ 2 + z ^ 2 = 1) (h0 : 0 ≤ θ) (hπ : θ ≤ Real.pi)
    (hs : 1 / 20 ≤ Real.sin θ)
    (hq : ‖qval f - mkQ (Real.cos (θ / 2)) (x * Real.sin (θ / 2)) (y * Real.sin (θ / 2)) (z * Real.sin (θ / 2))‖ ≤
      1 / 10 ^ 6) :
    ∃ m, Quat.convertToDcm v = .ok m ∧ ((m.det = .error (.err .Singular) ∧ m.log = .error (.err .Singular)) ∨
      ∃ r B, m.log = .ok r ∧ MatIs r 3 3 B ∧ ∀ i j : Fin 3, Finite (B i j) ∧
        |⟪B i j⟫ - θ * crossMat x y z i j| ≤ 14 / 10 ^ 5 / Real.sin θ ^ 2) := by
  have hp : ‖mkQ (Real.cos (θ / 2)) (x * Real.sin (θ / 2)) (y * Real.sin (θ / 2)) (z * Real.sin (θ / 2))‖ = 1 := by
    have h2 := Real.sin_sq_add_cos_sq (θ / 2)
    rw [norm_mkQ, Real.sqrt_eq_one]
    linear_combination Real.sin (θ / 2) ^ 2 * hu + h2
  have hn : ‖qval f‖ ≤ 1 + 1 / 10 ^ 6 := by
    have := norm_le_norm_add_norm_sub' (qval f)
      (mkQ (Real.cos (θ / 2)) (x * Real.sin (θ / 2)) (y * Real.sin (θ / 2)) (z * Real.sin (θ / 2)))
    linarith
  obtain ⟨m, D, e, hm, hD⟩ := C88_dcm hv hf (hn.trans (by norm_num))
  have hn2 : ‖qval f‖ ^ 2 ≤ 100001 / 100000 := by
    have := norm_nonneg (qval f)
    norm_num at hn
    nlinarith
  have hA : ∀ i j : Fin 3, |⟪D i j⟫ - rodrigues θ x y z i j| ≤ 92 / 10 ^ 7 := fun i j => by
    have h1 := (hD i j i.2 j.2).2
    have h2 := dcm_pert hp hq i j i.2 j.2
    rw [dcm_rodrigues hu] at h2
    refine (dist_trans h1 h2).trans ?_
    norm_num
    linarith
  refine ⟨m, e, ?_⟩
  rcases C123_rodrigues hm (fun i j hi hj => (hD i j hi hj).1) hu h0 hπ hs (by norm_num) hA with
    ⟨h1, h2, -⟩ | ⟨r, r', B, e1, -, k1, -, k3⟩
  · exact .inl ⟨h1, h2⟩
  · refine .inr ⟨r, B, e1, k1, fun i j => ⟨(k3 i j).1, (k3 i j).2.trans ?_⟩⟩
    refine div_le_div_of_nonneg_right (by norm_num) (sq_nonneg _)

/-! ### Where it fails -/

/-- A matrix with an exact 1.0 all over the diagonal. -/
theorem log_ones (ha : MatIs a 3 3 A) (hfin : ∀ i j, i < 3 → j < 3 → Finite (A i j))
    (hb : ∀ i j, i < 3 → j < 3 → |⟪A i j⟫| ≤ 1001 / 1000) (hd : a.det ≠ .error (.err .Singular))
    (hn : Scalar.isNaN ((A 0 0 -ᶠ A 0 0) *ᶠ logFactor (sumUp 3 fun i => A i i)) = true) :
    a.log = .error (.err (.UtilsError .Nan)) ∧ (Mat.logInPlace a).1 = .error (.err (.UtilsError .Nan)) := by
  obtain ⟨q, hq, hmax, ⟨h1, h2⟩ | ⟨d, h1, h2, -, -⟩⟩ := C122_det ha hfin hb
  · exact absurd h1 hd
  obtain ⟨b, e, -, -⟩ := mulT_run ha hfin (fun i j hi hj => (hb i j hi hj).trans (by norm_num))
  obtain ⟨s1, -⟩ := soN_of h1 h2 ha.rows_eq e
  have hs : ∀ i j, i < 3 → j < 3 → Finite (A i j -ᶠ A j i) := fun i j hi hj =>
    R.sub_finite (hfin i j hi hj) (hfin j i hj hi) ((abs_sub _ _).trans (by
      have := hb i j hi hj
      have := hb j i hj hi
      norm_num
      linarith))
  obtain ⟨k1, r, k2, -⟩ := log_nan ha hfin s1 hs hn
  exact ⟨k1, by rw [k2]⟩

/-- C123: small rotations have no logarithm.  A rotation by less than about `2.4·10⁻⁴`, stored in binary32, has the
diagonal 1.0, 1.0, 1.0; then the computed angle is zero and `log` divides zero by zero: it fails with `Nan`, whatever the
other elements are, if `det` does not fail before it.  For every mathematical library with `acosf(1) = 0` and
`sinf(0) = 0`. -/
theorem C123_small {sin cos acos asin exp : F32 → F32} {atan2 pow : F32 → F32 → F32}
    (h1 : acos ⟨.fin 1⟩ = ⟨.fin 0⟩) (h2 : sin ⟨.fin 0⟩ = ⟨.fin 0⟩) {a : Mat F32} {A : Nat → Nat → F32}
    (ha : MatIs a 3 3 A) (hfin : ∀ i j, i < 3 → j < 3 → Finite (A i j))
    (hb : ∀ i j, i < 3 → j < 3 → |⟪A i j⟫| ≤ 1001 / 1000) (hd : a.det ≠ .error (.err .Singular))
    (hone : ∀ i, i < 3 → A i i = ⟨.fin 1⟩) :
    @Mat.log F32 (F32.withLibm sin cos acos asin exp atan2 pow) a = .error (.err (.UtilsError .Nan)) ∧
    (@Mat.logInPlace F32 (F32.withLibm sin cos acos asin exp atan2 pow) a).1 = .error (.err (.UtilsError .Nan)) := by
  refine @log_ones F32 (F32.withLibm sin cos acos asin exp atan2 pow)
    (F32.withLibm_rounded sin cos acos asin exp atan2 pow) a A ⟨ha.1, ha.2, ha.3, ha.4, ha.5, ha.6, ha.7⟩ hfin hb hd ?_
  have e0 := hone 0 (by omega)
  have e1 := hone 1 (by omega)
  have e2 := hone 2 (by omega)
  have ht : @sumUp F32 (F32.withLibm sin cos acos asin exp atan2 pow) 3 (fun i => A i i) = ⟨.fin 3⟩ := by
    show ((lit 0 +ᶠ A 0 0) +ᶠ A 1 1) +ᶠ A 2 2 = (⟨.fin 3⟩ : F32)
    rw [e0, e1, e2]
    decide +kernel
  rw [ht, e0]
  show Scalar.isNaN (((⟨.fin 1⟩ : F32) -ᶠ ⟨.fin 1⟩) *ᶠ (acos (((⟨.fin 3⟩ : F32) -ᶠ lit 1) /ᶠ lit 2) /ᶠ
    (lit 2 *ᶠ sin (acos (((⟨.fin 3⟩ : F32) -ᶠ lit 1) /ᶠ lit 2))))) = true
  have ec : ((⟨.fin 3⟩ : F32) -ᶠ lit 1) /ᶠ lit 2 = ⟨.fin 1⟩ := by decide +kernel
  rw [ec, h1, h2]
  decide +kernel

/-- C123: and a trace above 3, as rounding makes it, also has none: `acosf` of a number above 1 is NaN.  -/
theorem C123_above {sin cos acos asin exp : F32 → F32} {atan2 pow : F32 → F32 → F32}
    (h1 : ∀ x : F32, (lit 1 <ᶠ x) = true → acos x = ⟨.nan⟩) {a : Mat F32} {A : Nat → Nat → F32}
    (ha : MatIs a 3 3 A) (hfin : ∀ i j, i < 3 → j < 3 → Finite (A i j))
    (hb : ∀ i j, i < 3 → j < 3 → |⟪A i j⟫| ≤ 1001 / 1000) (hd : a.det ≠ .error (.err .Singular)) {t : F32}
    (ht : a.trace = .ok t) (hbig : (lit 1 <ᶠ ((t -ᶠ lit 1) /ᶠ lit 2)) = true) :
    @Mat.log F32 (F32.withLibm sin cos acos asin exp atan2 pow) a = .error (.err (.UtilsError .Nan)) ∧
    (@Mat.logInPlace F32 (F32.withLibm sin cos acos asin exp atan2 pow) a).1 = .error (.err (.UtilsError .Nan)) := by
  refine @log_ones F32 (F32.withLibm sin cos acos asin exp atan2 pow)
    (F32.withLibm_rounded sin cos acos asin exp atan2 pow) a A ⟨ha.1, ha.2, ha.3, ha.4, ha.5, ha.6, ha.7⟩ hfin hb hd ?_
  rw [Mat.trace_eq ha] at ht
  have ht : @sumUp F32 (F32.withLibm sin cos acos asin exp atan2 pow) 3 (fun i => A i i) = t := Except.ok.inj ht
  rw [ht]
  show Scalar.isNaN ((A 0 0 -ᶠ A 0 0) *ᶠ (acos ((t -ᶠ lit 1) /ᶠ lit 2) /ᶠ
    (lit 2 *ᶠ sin (acos ((t -ᶠ lit 1) /ᶠ lit 2))))) = true
  rw [h1 _ hbig]
  have hm : ∀ x : F32, x *ᶠ ⟨.nan⟩ = ⟨.nan⟩ := fun x => by
    obtain ⟨x⟩ := x
    cases x <;> rfl
  have hdv : ∀ x : F32, (⟨.nan⟩ : F32) /ᶠ x = ⟨.nan⟩ := fun x => by
    obtain ⟨x⟩ := x
    cases x <;> rfl
  rw [hdv, hm]
  rfl

/-! ### Cases -/

/-- The rotation by π/3 about the diagonal, rounded to binary32. -/
def exR : List (List ℚ) := [[11184811 / 2 ^ 24, -11184811 / 2 ^ 25, 11184811 / 2 ^ 24],
  [11184811 / 2 ^ 24, 11184811 / 2 ^ 24, -11184811 / 2 ^ 25], [-11184811 / 2 ^ 25, 11184811 / 2 ^ 24, 11184811 / 2 ^ 24]]

theorem exR_fl : ∀ i, i < 3 → ∀ j, j < 3 → F32.fl (.fin (tbl exR i j)) = ⟨.fin (tbl exR i j)⟩ := by decide +kernel

theorem exR_is : MatIs (fmat exR) 3 3 (fun i j => (lit (tbl exR i j) : F32)) :=
  Mat.of_is _ (by decide) (by decide) (by decide) (by decide)

theorem exR_fin : ∀ i j, i < 3 → j < 3 → Finite (lit (tbl exR i j) : F32) := fun i j hi hj => by
  show Finite (F32.fl (.fin (tbl exR i j)))
  rw [exR_fl i hi j hj]
  exact ⟨rfl, rfl⟩

theorem exR_val : ∀ i j, i < 3 → j < 3 → ⟪(lit (tbl exR i j) : F32)⟫ = ((tbl exR i j : ℚ) : ℝ) := fun i j hi hj =>
  lit_val _ (exR_fl i hi j hj)

theorem exR_det : (fmat exR).det ≠ .error (.err .Singular) := by decide +kernel

theorem exR_near (i j : Fin 3) :
    |((tbl exR i j : ℚ) : ℝ) - rodrigues (Real.pi / 3) (1 / √3) (1 / √3) (1 / √3) i j| ≤ 1 / 10 ^ 7 := by
  have h3 : (0 : ℝ) < √3 := by positivity
  have hs : √3 * √3 = (3 : ℝ) := Real.mul_self_sqrt (by norm_num)
  have hR : rodrigues (Real.pi / 3) (1 / √3) (1 / √3) (1 / √3) =
      !![2 / 3, -1 / 3, 2 / 3; 2 / 3, 2 / 3, -1 / 3; -1 / 3, 2 / 3, 2 / 3] := by
    ext i j
    rw [rodrigues, Real.sin_pi_div_three, Real.cos_pi_div_three]
    fin_cases i <;> fin_cases j <;>
      simp [crossMat, Matrix.mul_apply, Fin.sum_univ_three] <;>
      field_simp <;> rw [Real.sq_sqrt (by norm_num)] <;> norm_num
  rw [hR]
  fin_cases i <;> fin_cases j <;> simp [tbl, exR] <;> rw [abs_le] <;> constructor <;> norm_num

/-- `C123_rodrigues` for it: `det` succeeds, and so does `log`. -/
example : ∃ r B, @Mat.log F32S _ (fmat exR) = .ok r ∧ MatIs r 3 3 B ∧
    ∀ i j : Fin 3, |⟪B i j⟫ - Real.pi / 3 * crossMat (1 / √3) (1 / √3) (1 / √3) i j| ≤ 3 / 10 ^ 5 := by
  have h3 : (0 : ℝ) < √3 := by positivity
  have hs : Real.sin (Real.pi / 3) = √3 / 2 := Real.sin_pi_div_three
  have hsq : Real.sin (Real.pi / 3) ^ 2 = 3 / 4 := by rw [hs, div_pow, Real.sq_sqrt (by norm_num)]; norm_num
  have hlow : 1 / 20 ≤ Real.sin (Real.pi / 3) := by
    rw [hs]
    have : (1 : ℝ) ≤ √3 := Real.one_le_sqrt.mpr (by norm_num)
    linarith
  have hm := exR_is
  have key := C123_rodrigues (F := F32S) (a := fmat exR) (A := fun i j => (lit (tbl exR i j) : F32S)) (θ := Real.pi / 3)
    (x := 1 / √3) (y := 1 / √3) (z := 1 / √3) (e := 1 / 10 ^ 7) ⟨hm.1, hm.2, hm.3, hm.4, hm.5, hm.6, hm.7⟩ exR_fin
    (by rw [div_pow, Real.sq_sqrt (by norm_num)]; norm_num) (by positivity) (by linarith [Real.pi_pos]) hlow (by norm_num)
    (fun i j => by
      have e := exR_val i j i.2 j.2
      have : (⟪(lit (tbl exR i j) : F32S)⟫ : ℝ) = ((tbl exR i j : ℚ) : ℝ) := e
      rw [this]
      exact exR_near i j)
  rcases key with ⟨h, -⟩ | ⟨r, r', B, e1, -, k1, -, k3⟩
  · exact absurd h exR_det
  · refine ⟨r, B, e1, k1, fun i j => (k3 i j).2.trans ?_⟩
    rw [hsq]
    norm_num

/-- Its quaternion, rounded to binary32. -/
def exV : List ℚ := [14529495 / 2 ^ 24, 9686330 / 2 ^ 25, 9686330 / 2 ^ 25, 9686330 / 2 ^ 25]

/-- `C123_quaternion` for it. -/
example : ∃ m, @Quat.convertToDcm F32S _ (fvec exV) = .ok m ∧
    ((m.det = .error (.err .Singular) ∧ m.log = .error (.err .Singular)) ∨
      ∃ r B, m.log = .ok r ∧ MatIs r 3 3 B ∧ ∀ i j : Fin 3, Finite (B i j) ∧
        |⟪B i j⟫ - Real.pi / 3 * crossMat (1 / √3) (1 / √3) (1 / √3) i j| ≤ 14 / 10 ^ 5 / Real.sin (Real.pi / 3) ^ 2) := by
  have h3 : (0 : ℝ) < √3 := by positivity
  have hs : Real.sin (Real.pi / 3) = √3 / 2 := Real.sin_pi_div_three
  have hlow : 1 / 20 ≤ Real.sin (Real.pi / 3) := by
    rw [hs]
    have : (1 : ℝ) ≤ √3 := Real.one_le_sqrt.mpr (by norm_num)
    linarith
  have hv := fvec_is exV rfl
  have hf : ∀ i, i < 4 → Finite (lit (exV.getD i 0) : F32) := by decide +kernel
  refine C123_quaternion (F := F32S) (f := fun i => (lit (exV.getD i 0) : F32S)) ⟨hv.1, hv.2, hv.3, hv.4⟩ hf
    (by rw [div_pow, Real.sq_sqrt (by norm_num)]; norm_num) (by positivity) (by linarith [Real.pi_pos]) hlow ?_
  have hq : qval (fun i => (lit (exV.getD i 0) : F32S)) =
      mkQ (14529495 / 2 ^ 24) (9686330 / 2 ^ 25) (9686330 / 2 ^ 25) (9686330 / 2 ^ 25) := by
    have : qval (fun i => (lit (exV.getD i 0) : F32)) =
        mkQ (14529495 / 2 ^ 24) (9686330 / 2 ^ 25) (9686330 / 2 ^ 25) (9686330 / 2 ^ 25) := by
      unfold qval
      simp only [exV, List.getD_cons_zero, List.getD_cons_succ]
      rw [lit_val (14529495 / 2 ^ 24) (by decide +kernel), lit_val (9686330 / 2 ^ 25) (by decide +kernel)]
      norm_num
    exact this
  have l1 : (17320508 / 10000000 : ℝ) < √3 := Real.lt_sqrt_of_sq_lt (by norm_num)
  have l2 : √3 < (17320509 / 10000000 : ℝ) := (Real.sqrt_lt' (by norm_num)).mpr (by norm_num)
  have e6 : Real.pi / 3 / 2 = Real.pi / 6 := by ring
  have ed : 1 / √3 * (1 / 2) = √3 / 6 := by
    field_simp
    rw [Real.sq_sqrt (by norm_num)]
    norm_num
  rw [hq, e6, Real.cos_pi_div_six, Real.sin_pi_div_six, ed]
  have hd : mkQ (14529495 / 2 ^ 24) (9686330 / 2 ^ 25) (9686330 / 2 ^ 25) (9686330 / 2 ^ 25) -
      mkQ (√3 / 2) (√3 / 6) (√3 / 6) (√3 / 6) = mkQ (14529495 / 2 ^ 24 - √3 / 2) (9686330 / 2 ^ 25 - √3 / 6)
        (9686330 / 2 ^ 25 - √3 / 6) (9686330 / 2 ^ 25 - √3 / 6) := by
    ext <;> rfl
  rw [hd, norm_mkQ]
  refine Real.sqrt_le_iff.mpr ⟨by norm_num, ?_⟩
  have b1 : |14529495 / 2 ^ 24 - √3 / 2| ≤ 1 / 10 ^ 7 := by
    rw [abs_le]
    constructor <;> norm_num <;> linarith
  have b2 : |9686330 / 2 ^ 25 - √3 / 6| ≤ 1 / 10 ^ 7 := by
    rw [abs_le]
    constructor <;> norm_num <;> linarith
  have c1 := sq_le_sq' (abs_le.mp b1).1 (abs_le.mp b1).2
  have c2 := sq_le_sq' (abs_le.mp b2).1 (abs_le.mp b2).2
  refine (add_le_add (add_le_add (add_le_add c1 c2) c2) c2).trans ?_
  norm_num

/-- A turn by about `1.4·10⁻⁴`, all of whose diagonal is rounded to 1. -/
def exT : List (List ℚ) := [[1, -1 / 2 ^ 13, 1 / 2 ^ 14], [1 / 2 ^ 13, 1, -1 / 2 ^ 20], [-1 / 2 ^ 14, 1 / 2 ^ 20, 1]]

/-- `C123_small` for it, with functions that are 0 at 1 and at 0. -/
example : @Mat.log F32 (F32.withLibm (fun x => x) Scalar.cos (fun x => (lit 1 : F32) -ᶠ x) Scalar.asin Scalar.exp
    Scalar.atan2 Scalar.pow) (fmat exT) = .error (.err (.UtilsError .Nan)) := by
  have hfl : ∀ i, i < 3 → ∀ j, j < 3 → F32.fl (.fin (tbl exT i j)) = ⟨.fin (tbl exT i j)⟩ := by decide +kernel
  have hle : ∀ i, i < 3 → ∀ j, j < 3 → |tbl exT i j| ≤ 1 := by decide +kernel
  refine (C123_small (a := fmat exT) (A := fun i j => (lit (tbl exT i j) : F32)) (by decide +kernel) rfl
    (Mat.of_is _ (by decide) (by decide) (by decide) (by decide)) (fun i j hi hj => ?_) (fun i j hi hj => ?_)
    (by decide +kernel) (by decide +kernel)).1
  · show Finite (F32.fl (.fin (tbl exT i j)))
    rw [hfl i hi j hj]
    exact ⟨rfl, rfl⟩
  · rw [lit_val _ (hfl i hi j hj)]
    have : |((tbl exT i j : ℚ) : ℝ)| ≤ 1 := by exact_mod_cast hle i hi j hj
    linarith

/-- C123: rounding brings a quaternion of norm within `10⁻⁶` of 1 there: `log` of its rotation matrix fails with `Nan`. -/
theorem C123_quaternion_above {sin cos acos asin exp : F32 → F32} {atan2 pow : F32 → F32 → F32}
    (h1 : ∀ x : F32, (lit 1 <ᶠ x) = true → acos x = ⟨.nan⟩) :
    ∃ (v : Vec F32) (f : Nat → F32) (m : Mat F32), VecIs v 4 f ∧ (∀ i, i < 4 → Finite (f i)) ∧ NearUnit f ∧
      Quat.convertToDcm v = .ok m ∧
      @Mat.log F32 (F32.withLibm sin cos acos asin exp atan2 pow) m = .error (.err (.UtilsError .Nan)) := by
  have hv := fvec_is [1 + 1 / 2 ^ 23, 0, 0, 0] rfl
  have hf : ∀ i, i < 4 → Finite (lit ([1 + 1 / 2 ^ 23, 0, 0, 0].getD i 0) : F32) := by decide +kernel
  have hq : qval (fun i => (lit ([1 + 1 / 2 ^ 23, 0, 0, 0].getD i 0) : F32)) = mkQ (1 + 1 / 2 ^ 23) 0 0 0 := by
    unfold qval
    simp only [List.getD_cons_zero, List.getD_cons_succ]
    rw [lit_val 0 (by decide +kernel), lit_val _ (by decide +kernel)]
    norm_num
  have hn : ‖qval (fun i => (lit ([1 + 1 / 2 ^ 23, 0, 0, 0].getD i 0) : F32))‖ = 1 + 1 / 2 ^ 23 := by
    rw [hq, norm_mkQ, show (1 + 1 / 2 ^ 23 : ℝ) ^ 2 + 0 ^ 2 + 0 ^ 2 + 0 ^ 2 = (1 + 1 / 2 ^ 23) ^ 2 by ring]
    exact Real.sqrt_sq (by positivity)
  obtain ⟨m, D, e, hm, hD⟩ := C88_dcm hv hf (by rw [hn]; norm_num)
  have hR : ∀ i j, i < 3 → j < 3 → |⟪D i j⟫| ≤ 1001 / 1000 := fun i j hi hj => by
    have h2 := (hD i j hi hj).2
    rw [hn, hq] at h2
    have h3 : |dcmOf (mkQ (1 + 1 / 2 ^ 23) 0 0 0) i j| ≤ 10001 / 10000 := by
      have hi : i = 0 ∨ i = 1 ∨ i = 2 := by omega
      have hj : j = 0 ∨ j = 1 ∨ j = 2 := by omega
      rcases hi with rfl | rfl | rfl <;> rcases hj with rfl | rfl | rfl <;> simp [dcmOf, tbl, mkQ] <;>
        norm_num [abs_of_pos]
    have := le_of_dist h3 h2
    norm_num at this ⊢
    linarith
  have k1 : (Quat.convertToDcm (fvec [1 + 1 / 2 ^ 23, 0, 0, 0]) >>= fun m => m.trace) =
      .ok (⟨.fin (3 + 1 / 2 ^ 22)⟩ : F32) := by decide +kernel
  have k2 : (Quat.convertToDcm (fvec [1 + 1 / 2 ^ 23, 0, 0, 0]) >>= fun m => m.det) ≠ .error (.err .Singular) := by
    decide +kernel
  rw [e] at k1 k2
  refine ⟨_, _, m, hv, hf, ?_, e, (C123_above h1 hm (fun i j hi hj => (hD i j hi hj).1) hR k2 k1 (by decide +kernel)).1⟩
  unfold NearUnit
  rw [hn]
  norm_num [abs_of_pos]

end Verif
