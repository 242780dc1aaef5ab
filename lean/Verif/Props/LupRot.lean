import Verif.Props.LupWhen
import Verif.Props.MatrixLog

/-
C108: which rotations `det`, and what is built on it, refuses.  In exact arithmetic; `c` and `s` stand
for the cosine and the sine of the angle.
-/

set_option linter.unusedSectionVars false
set_option linter.unusedSimpArgs false

namespace Verif
open Scalar Finset

section
variable {K : Type} [Field K] [LinearOrder K] [IsStrictOrderedRing K] [Elementary K]
variable {a : Mat (Ext K)} {c s : K}

/-- Rotation in the plane. -/
def planeMat (c s : K) : Nat → Nat → K := tbl [[c, -s], [s, c]]
/-- Rotation about the first axis. -/
def rollMat (c s : K) : Nat → Nat → K := tbl [[1, 0, 0], [0, c, -s], [0, s, c]]
/-- Rotation about the second axis. -/
def pitchMat (c s : K) : Nat → Nat → K := tbl [[c, 0, s], [0, 1, 0], [-s, 0, c]]
/-- Rotation about the third axis. -/
def yawMat (c s : K) : Nat → Nat → K := tbl [[c, -s, 0], [s, c, 0], [0, 0, 1]]

/-- What `det` does on an orthogonal matrix decides the tests. -/
theorem tests_of_det {n : Nat} {A : Nat → Nat → K} (ha : MatIs a n n (fun i j => .fin (A i j)))
    (hA : toMatrix n n A * (toMatrix n n A).transpose = 1) {P : Prop} [Decidable P]
    (hd : a.det = if P then .ok (.fin 1) else .error (.err .Singular)) :
    a.isSoN = (if P then .ok true else .error (.err .Singular)) ∧
    a.isOrthogonal = (if P then .ok true else .error (.err .Singular)) := by
  have h0 : ∀ x : K, |x - x| ≤ epsilon K := fun x => by
    rw [sub_self, abs_zero]; exact le_of_lt Linalg.eps_pos
  have hno : NearOrthogonal n A := fun i j => by rw [hA]; exact h0 _
  by_cases hP : P
  · rw [if_pos hP] at hd
    simp only [if_pos hP]
    refine ⟨(C62_so_n_any ha).mpr ⟨⟨1, hd, h0 1⟩, hno⟩, ?_⟩
    rcases C62_orthogonal ha with ⟨_, h⟩ | ⟨b, e, hb, _⟩
    · rw [hd] at h; cases h
    · rw [e, hb.mpr ⟨?_, hno⟩]
      have hdet : (toMatrix n n A).det * (toMatrix n n A).det = 1 := by
        have := congrArg Matrix.det hA
        rwa [Matrix.det_mul, Matrix.det_transpose, Matrix.det_one] at this
      have : |(toMatrix n n A).det| = 1 := by
        have h2 : |(toMatrix n n A).det| * |(toMatrix n n A).det| = 1 := by
          rw [← abs_mul, hdet, abs_one]
        nlinarith [abs_nonneg (toMatrix n n A).det]
      rw [this]; exact h0 1
  · rw [if_neg hP] at hd
    simp only [if_neg hP]
    exact ⟨by unfold Mat.isSoN; rw [hd]; rfl, by unfold Mat.isOrthogonal; rw [hd]; rfl⟩

/-- C108: a rotation in the plane is accepted exactly when the larger, with sign, of cosine and sine is
at least `EPSILON` in magnitude. -/
theorem C108_plane (ha : MatIs a 2 2 (fun i j => .fin (planeMat c s i j))) (h1 : c ^ 2 + s ^ 2 = 1) :
    a.det = (if epsilon K ≤ |max c s| then .ok (.fin 1) else .error (.err .Singular)) ∧
    a.isSoN = (if epsilon K ≤ |max c s| then .ok true else .error (.err .Singular)) ∧
    a.isOrthogonal = (if epsilon K ≤ |max c s| then .ok true else .error (.err .Singular)) := by
  have hd := (C107_two ha).2.1
  have e : planeMat c s 0 0 * planeMat c s 1 1 - planeMat c s 0 1 * planeMat c s 1 0 = 1 := by
    simp only [planeMat, tbl, List.getD_cons_zero, List.getD_cons_succ]
    first | ring1 | linear_combination h1
  rw [e] at hd
  refine ⟨hd, tests_of_det ha ?_ hd⟩
  ext i j
  fin_cases i <;> fin_cases j <;>
    simp [toMatrix, planeMat, tbl, Matrix.mul_apply, Fin.sum_univ_two] <;>
    first | ring1 | linear_combination h1

theorem det_three {A : Nat → Nat → K} : (toMatrix 3 3 A).det =
    A 0 0 * (A 1 1 * A 2 2 - A 1 2 * A 2 1) - A 0 1 * (A 1 0 * A 2 2 - A 1 2 * A 2 0) +
      A 0 2 * (A 1 0 * A 2 1 - A 1 1 * A 2 0) := by
  rw [Matrix.det_fin_three]
  simp only [toMatrix]
  change A 0 0 * A 1 1 * A 2 2 - A 0 0 * A 1 2 * A 2 1 - A 0 1 * A 1 0 * A 2 2 +
    A 0 1 * A 1 2 * A 2 0 + A 0 2 * A 1 0 * A 2 1 - A 0 2 * A 1 1 * A 2 0 = _
  ring

/-- C108: a rotation about the third axis is accepted exactly when neither the cosine nor the sine is
negative: between 0 and a quarter turn. -/
theorem C108_yaw (ha : MatIs a 3 3 (fun i j => .fin (yawMat c s i j))) (h1 : c ^ 2 + s ^ 2 = 1) :
    a.det = (if 0 ≤ c ∧ 0 ≤ s then .ok (.fin 1) else .error (.err .Singular)) ∧
    a.isSoN = (if 0 ≤ c ∧ 0 ≤ s then .ok true else .error (.err .Singular)) ∧
    a.isOrthogonal = (if 0 ≤ c ∧ 0 ≤ s then .ok true else .error (.err .Singular)) := by
  have e00 : yawMat c s 0 0 = c := rfl
  have e01 : yawMat c s 0 1 = -s := rfl
  have e10 : yawMat c s 1 0 = s := rfl
  have e11 : yawMat c s 1 1 = c := rfl
  have e20 : yawMat c s 2 0 = 0 := rfl
  have e21 : yawMat c s 2 1 = 0 := rfl
  have hdet : (toMatrix 3 3 (yawMat c s)).det = 1 := by
    rw [det_three, e00, e01, e10, e11, e20, e21, show yawMat c s 0 2 = 0 from rfl,
      show yawMat c s 1 2 = 0 from rfl, show yawMat c s 2 2 = 1 from rfl]
    first | ring1 | linear_combination h1
  have heps : epsilon K ≤ 1 / 2 := by unfold epsilon; norm_num
  have hd : a.det = if 0 ≤ c ∧ 0 ≤ s then .ok (.fin 1) else .error (.err .Singular) := by
    by_cases hs : s < 0
    · rw [if_neg fun h => absurd h.2 (not_le.mpr hs)]
      by_cases hc : 0 < c
      · exact (C107_block ha hc hs e20 e21).2.1
      · refine (C107_first ha (by omega) (fun i hi => ?_) ⟨2, by omega, ?_⟩).2.1
        · have := Linalg.eps_pos (K := K)
          obtain rfl | rfl | rfl : i = 0 ∨ i = 1 ∨ i = 2 := by omega
          · rw [e00]; linarith
          · rw [e10]; linarith
          · rw [e20]; exact this
        · rw [e20]; have := Linalg.eps_pos (K := K); linarith
    have hs : 0 ≤ s := not_lt.mp hs
    have hε := Linalg.eps_pos (K := K)
    have hrec : ∀ x : K, 0 < x → x ≤ 1 → epsilon K ≤ x⁻¹ := fun x h0 h1 =>
      le_trans (le_trans heps (by norm_num)) ((one_le_inv₀ h0).mpr h1)
    by_cases hc : c < 0
    · rw [if_neg fun h => absurd h.1 (not_le.mpr hc)]
      by_cases hse : s < epsilon K
      · refine (C107_first ha (by omega) (fun i hi => ?_) ⟨2, by omega, ?_⟩).2.1
        · obtain rfl | rfl | rfl : i = 0 ∨ i = 1 ∨ i = 2 := by omega
          · rw [e00]; linarith
          · rw [e10]; exact hse
          · rw [e20]; exact hε
        · rw [e20]; linarith
      · have hs0 : 0 < s := lt_of_lt_of_le hε (not_lt.mp hse)
        have h := (C107_three ha (q := 1) (i := 0) (j := 2) (Or.inr (Or.inl ⟨rfl, rfl, rfl⟩))
          (fun k hk => by
            obtain rfl | rfl | rfl : k = 0 ∨ k = 1 ∨ k = 2 := by omega
            · rw [e00, e10]; linarith
            · exact le_refl _
            · rw [e20, e10]; exact hs)
          (fun k hk => by obtain rfl : k = 0 := by omega
                          rw [e00, e10]; linarith)).2.1
        rw [h, if_neg]
        rintro ⟨_, h2⟩
        unfold secondPivot at h2
        rw [e00, e10, e20, e21, e11, zero_div, mul_zero, sub_zero,
          if_pos (div_neg_of_neg_of_pos hc hs0), abs_zero] at h2
        linarith
    have hc : 0 ≤ c := not_lt.mp hc
    rw [if_pos ⟨hc, hs⟩]
    by_cases hsc : s ≤ c
    · have hc2 : 1 / 2 ≤ c := by nlinarith
      have hc0 : 0 < c := by linarith
      have h := (C107_three ha (q := 0) (i := 1) (j := 2) (Or.inl ⟨rfl, rfl, rfl⟩)
        (fun k hk => by
          obtain rfl | rfl | rfl : k = 0 ∨ k = 1 ∨ k = 2 := by omega
          · exact le_refl _
          · rw [e00, e10]; exact hsc
          · rw [e20, e00]; exact hc) (fun k hk => by omega)).2.1
      rw [h, hdet, if_pos]
      unfold secondPivot
      rw [e00, e10, e20, e21, e11, e01, zero_div, mul_zero, sub_zero,
        if_neg (not_lt.mpr (div_nonneg hs hc))]
      refine ⟨by rw [abs_of_pos hc0]; linarith, ?_⟩
      have : c - -s * (s / c) = c⁻¹ := by
        field_simp
        linear_combination h1
      rw [this, abs_of_pos (inv_pos.mpr hc0)]
      exact hrec c hc0 (by nlinarith [sq_nonneg s])
    · have hsc : c < s := not_le.mp hsc
      have hs2 : 1 / 2 ≤ s := by nlinarith
      have hs0 : 0 < s := by linarith
      have h := (C107_three ha (q := 1) (i := 0) (j := 2) (Or.inr (Or.inl ⟨rfl, rfl, rfl⟩))
        (fun k hk => by
          obtain rfl | rfl | rfl : k = 0 ∨ k = 1 ∨ k = 2 := by omega
          · rw [e00, e10]; exact le_of_lt hsc
          · exact le_refl _
          · rw [e20, e10]; exact hs)
        (fun k hk => by obtain rfl : k = 0 := by omega
                        rw [e00, e10]; exact hsc)).2.1
      rw [h, hdet, if_pos]
      unfold secondPivot
      rw [e00, e10, e20, e21, e11, e01, zero_div, mul_zero, sub_zero,
        if_neg (not_lt.mpr (div_nonneg hc hs))]
      refine ⟨by rw [abs_of_pos hs0]; linarith, ?_⟩
      have : -s - c * (c / s) = -s⁻¹ := by
        field_simp
        linear_combination -h1
      rw [this, abs_neg, abs_of_pos (inv_pos.mpr hs0)]
      exact hrec s hs0 (by nlinarith [sq_nonneg c])
  refine ⟨hd, tests_of_det ha ?_ hd⟩
  ext i j
  fin_cases i <;> fin_cases j <;>
    simp [toMatrix, yawMat, tbl, Matrix.mul_apply, Fin.sum_univ_three] <;>
    first | ring1 | linear_combination h1

/-- C108: a rotation about the second axis is accepted exactly when the cosine or the opposite of the
sine is at least `EPSILON`. -/
theorem C108_pitch (ha : MatIs a 3 3 (fun i j => .fin (pitchMat c s i j))) (h1 : c ^ 2 + s ^ 2 = 1) :
    a.det = (if epsilon K ≤ c ∨ epsilon K ≤ -s then .ok (.fin 1) else .error (.err .Singular)) ∧
    a.isSoN = (if epsilon K ≤ c ∨ epsilon K ≤ -s then .ok true else .error (.err .Singular)) ∧
    a.isOrthogonal = (if epsilon K ≤ c ∨ epsilon K ≤ -s then .ok true else .error (.err .Singular)) := by
  have e00 : pitchMat c s 0 0 = c := rfl
  have e01 : pitchMat c s 0 1 = 0 := rfl
  have e10 : pitchMat c s 1 0 = 0 := rfl
  have e11 : pitchMat c s 1 1 = 1 := rfl
  have e20 : pitchMat c s 2 0 = -s := rfl
  have e21 : pitchMat c s 2 1 = 0 := rfl
  have hdet : (toMatrix 3 3 (pitchMat c s)).det = 1 := by
    rw [det_three, e00, e01, e10, e11, e20, e21, show pitchMat c s 0 2 = s from rfl,
      show pitchMat c s 1 2 = 0 from rfl, show pitchMat c s 2 2 = c from rfl]
    first | ring1 | linear_combination h1
  have hε := Linalg.eps_pos (K := K)
  have heps : epsilon K ≤ 1 := by unfold epsilon; norm_num
  have hd : a.det = if epsilon K ≤ c ∨ epsilon K ≤ -s then .ok (.fin 1) else .error (.err .Singular) := by
    by_cases hP : epsilon K ≤ c ∨ epsilon K ≤ -s
    · rw [if_pos hP]
      by_cases hsc : -s ≤ c
      · have hc0 : epsilon K ≤ c := by rcases hP with h | h <;> linarith
        have h := (C107_three ha (q := 0) (i := 1) (j := 2) (Or.inl ⟨rfl, rfl, rfl⟩)
          (fun k hk => by
            obtain rfl | rfl | rfl : k = 0 ∨ k = 1 ∨ k = 2 := by omega
            · exact le_refl _
            · rw [e00, e10]; linarith
            · rw [e20, e00]; exact hsc) (fun k hk => by omega)).2.1
        rw [h, hdet, if_pos]
        unfold secondPivot
        rw [e00, e10, e20, e21, e11, e01, zero_div, zero_mul, sub_zero, if_neg (lt_irrefl _),
          zero_mul, sub_zero, abs_one, abs_of_pos (lt_of_lt_of_le hε hc0)]
        exact ⟨hc0, heps⟩
      · have hsc : c < -s := not_le.mp hsc
        have hs0 : epsilon K ≤ -s := by rcases hP with h | h <;> linarith
        have h := (C107_three ha (q := 2) (i := 1) (j := 0) (Or.inr (Or.inr ⟨rfl, rfl, rfl⟩))
          (fun k hk => by
            obtain rfl | rfl | rfl : k = 0 ∨ k = 1 ∨ k = 2 := by omega
            · rw [e20, e00]; exact le_of_lt hsc
            · rw [e20, e10]; linarith
            · exact le_refl _)
          (fun k hk => by
            obtain rfl | rfl : k = 0 ∨ k = 1 := by omega
            · rw [e20, e00]; exact hsc
            · rw [e20, e10]; linarith)).2.1
        rw [h, hdet, if_pos]
        unfold secondPivot
        rw [e00, e10, e20, e21, e11, e01, zero_div, zero_mul, sub_zero, if_neg (lt_irrefl _),
          zero_mul, sub_zero, abs_one, abs_of_pos (lt_of_lt_of_le hε hs0)]
        exact ⟨hs0, heps⟩
    · rw [if_neg hP]
      push Not at hP
      refine (C107_first ha (by omega) (fun i hi => ?_) ⟨1, by omega, ?_⟩).2.1
      · obtain rfl | rfl | rfl : i = 0 ∨ i = 1 ∨ i = 2 := by omega
        · rw [e00]; exact hP.1
        · rw [e10]; exact hε
        · rw [e20]; exact hP.2
      · rw [e10]; linarith
  refine ⟨hd, tests_of_det ha ?_ hd⟩
  ext i j
  fin_cases i <;> fin_cases j <;>
    simp [toMatrix, pitchMat, tbl, Matrix.mul_apply, Fin.sum_univ_three] <;>
    first | ring1 | linear_combination h1

/-- C108: a rotation about the first axis is refused when the sine is positive but below `EPSILON`
(a small turn), and when the sine is not positive and the cosine is below `EPSILON` in magnitude. -/
theorem C108_roll (ha : MatIs a 3 3 (fun i j => .fin (rollMat c s i j))) (h1 : c ^ 2 + s ^ 2 = 1) :
    a.det = (if epsilon K ≤ s ∨ (s ≤ 0 ∧ epsilon K ≤ |c|) then .ok (.fin 1)
      else .error (.err .Singular)) ∧
    a.isSoN = (if epsilon K ≤ s ∨ (s ≤ 0 ∧ epsilon K ≤ |c|) then .ok true
      else .error (.err .Singular)) ∧
    a.isOrthogonal = (if epsilon K ≤ s ∨ (s ≤ 0 ∧ epsilon K ≤ |c|) then .ok true
      else .error (.err .Singular)) := by
  have e00 : rollMat c s 0 0 = 1 := rfl
  have e01 : rollMat c s 0 1 = 0 := rfl
  have e10 : rollMat c s 1 0 = 0 := rfl
  have e11 : rollMat c s 1 1 = c := rfl
  have e20 : rollMat c s 2 0 = 0 := rfl
  have e21 : rollMat c s 2 1 = s := rfl
  have hdet : (toMatrix 3 3 (rollMat c s)).det = 1 := by
    rw [det_three, e00, e01, e10, e11, e20, e21, show rollMat c s 0 2 = 0 from rfl,
      show rollMat c s 1 2 = -s from rfl, show rollMat c s 2 2 = c from rfl]
    first | ring1 | linear_combination h1
  have hε := Linalg.eps_pos (K := K)
  have heps : epsilon K ≤ 1 := by unfold epsilon; norm_num
  have hd : a.det = if epsilon K ≤ s ∨ (s ≤ 0 ∧ epsilon K ≤ |c|) then .ok (.fin 1)
      else .error (.err .Singular) := by
    have h := (C107_three ha (q := 0) (i := 1) (j := 2) (Or.inl ⟨rfl, rfl, rfl⟩)
      (fun k hk => by
        obtain rfl | rfl | rfl : k = 0 ∨ k = 1 ∨ k = 2 := by omega
        · exact le_refl _
        · rw [e00, e10]; linarith
        · rw [e00, e20]; linarith) (fun k hk => by omega)).2.1
    have hp : secondPivot (rollMat c s) 0 1 2 = if 0 < s then s else c := by
      unfold secondPivot
      rw [e00, e10, e20, e21, e11, e01, zero_div, zero_mul, sub_zero, sub_zero]
    rw [h, hdet, hp, e00, abs_one]
    congr 1
    rw [eq_iff_iff]
    by_cases hs : 0 < s
    · rw [if_pos hs, abs_of_pos hs]
      exact ⟨fun h => Or.inl h.2, fun h => ⟨heps, h.elim id fun h => absurd h.1 (not_le.mpr hs)⟩⟩
    · rw [if_neg hs]
      exact ⟨fun h => Or.inr ⟨not_lt.mp hs, h.2⟩,
        fun h => ⟨heps, h.elim (fun h => absurd (lt_of_lt_of_le hε h) hs) fun h => h.2⟩⟩
  refine ⟨hd, tests_of_det ha ?_ hd⟩
  ext i j
  fin_cases i <;> fin_cases j <;>
    simp [toMatrix, rollMat, tbl, Matrix.mul_apply, Fin.sum_univ_three] <;>
    first | ring1 | linear_combination h1

/-- A rotation with rational entries in each quadrant of the yaw: only the first is accepted. -/
example : (Mat.of 3 3 fun i j => (.fin (yawMat (3 / 5) (4 / 5) i j) : XQ)).isSoN = .ok true ∧
    (Mat.of 3 3 fun i j => (.fin (yawMat (-3 / 5) (4 / 5) i j) : XQ)).isSoN =
      .error (.err .Singular) ∧
    (Mat.of 3 3 fun i j => (.fin (yawMat (-3 / 5) (-4 / 5) i j) : XQ)).isSoN =
      .error (.err .Singular) ∧
    (Mat.of 3 3 fun i j => (.fin (yawMat (3 / 5) (-4 / 5) i j) : XQ)).isSoN =
      .error (.err .Singular) := by
  decide +kernel

/-- A small positive roll is refused, the opposite one is accepted: the sine is `2 t / (1 + t²)` with
`t = 1 / 40000`, about `5 · 10⁻⁵`. -/
example : (Mat.of 3 3 fun i j => (.fin (rollMat (1599999999 / 1600000001) (80000 / 1600000001) i j) : XQ)).det =
      .error (.err .Singular) ∧
    (Mat.of 3 3 fun i j => (.fin (rollMat (1599999999 / 1600000001) (-80000 / 1600000001) i j) : XQ)).det =
      .ok (.fin 1) := by
  decide +kernel

/-- The pitch is refused in one quadrant only. -/
example : (Mat.of 3 3 fun i j => (.fin (pitchMat (-3 / 5) (4 / 5) i j) : XQ)).det =
      .error (.err .Singular) ∧
    (Mat.of 3 3 fun i j => (.fin (pitchMat (-3 / 5) (-4 / 5) i j) : XQ)).det = .ok (.fin 1) := by
  decide +kernel

end

/-! ### The logarithm -/

section
variable {m : Mat XR} {θ : ℝ}

theorem yaw_rodrigues : toMatrix 3 3 (yawMat (Real.cos θ) (Real.sin θ)) = rodrigues θ 0 0 1 := by
  ext i j
  fin_cases i <;> fin_cases j <;>
    simp [toMatrix, yawMat, tbl, rodrigues, crossMat, Matrix.mul_apply, Fin.sum_univ_three]

/-- C108: `log` of the rotation about the third axis by an angle strictly between `-π` and `π`, other
than 0, is the angle times the cross-product matrix up to a quarter turn forwards, and fails with
`Singular` for every other angle. -/
theorem C108_log_yaw
    (hm : MatIs m 3 3 (fun i j => .fin (yawMat (Real.cos θ) (Real.sin θ) i j))) :
    (0 < θ → θ ≤ Real.pi / 2 → ∃ r B, m.log = .ok r ∧ MatIs r 3 3 (fun i j => .fin (B i j)) ∧
      toMatrix 3 3 B = θ • crossMat 0 0 1) ∧
    (-Real.pi < θ → θ < 0 → m.log = .error (.err .Singular)) ∧
    (Real.pi / 2 < θ → θ ≤ Real.pi → m.log = .error (.err .Singular)) := by
  have h1 : Real.cos θ ^ 2 + Real.sin θ ^ 2 = 1 := by rw [add_comm]; exact Real.sin_sq_add_cos_sq θ
  have hd := (C108_yaw hm h1).1
  refine ⟨fun h0 h2 => ?_, fun h0 h2 => ?_, fun h0 h2 => ?_⟩
  · have hπ := Real.pi_pos
    rw [if_pos ⟨Real.cos_nonneg_of_neg_pi_div_two_le_of_le (by linarith) h2,
      Real.sin_nonneg_of_nonneg_of_le_pi h0.le (by linarith)⟩] at hd
    obtain ⟨r, _, B, e, _, hr, _, hB⟩ := C74_rodrigues (x := 0) (y := 0) (z := 1) hm
      (by rw [hd]; intro h; cases h) (by norm_num) h0 (by linarith) yaw_rodrigues
    exact ⟨r, B, e, hr, hB⟩
  · rw [if_neg fun h => absurd h.2 (not_le.mpr (Real.sin_neg_of_neg_of_neg_pi_lt h2 h0))] at hd
    exact (C74_fail hd).1
  · have hπ := Real.pi_pos
    rw [if_neg fun h => absurd h.1 (not_le.mpr
      (Real.cos_neg_of_pi_div_two_lt_of_lt h0 (by linarith)))] at hd
    exact (C74_fail hd).1

/-- C74: `log` of the identity fails with `Nan`, without condition: `det` does not fail on it. -/
theorem C74_identity_any {A : Nat → Nat → ℝ} (hm : MatIs m 3 3 (fun i j => .fin (A i j)))
    (hA : toMatrix 3 3 A = 1) : m.log = .error (.err (.UtilsError .Nan)) := by
  have hA' : ∀ i j (hi : i < 3) (hj : j < 3), A i j = if i = j then 1 else 0 := fun i j hi hj => by
    have := congrFun (congrFun hA ⟨i, hi⟩) ⟨j, hj⟩
    rw [Matrix.one_apply] at this
    simpa [toMatrix, Fin.ext_iff] using this
  refine C74_identity hm hA ?_
  have hε : epsilon ℝ ≤ 1 := by unfold epsilon; norm_num
  obtain ⟨st, h⟩ := (C107_upper hm (by omega) fun i j hi hj => by
      rw [hA' i j hi (by omega), if_neg (by omega)]).1.mpr
    ⟨by rw [hA' 0 0 (by omega) (by omega)]; simpa using hε,
      fun k hk hk' => by rw [hA' k k (by omega) (by omega)]; simpa using hε⟩
  rw [det_of_lup hm (by omega) h]
  intro h; cases h

end
end Verif
