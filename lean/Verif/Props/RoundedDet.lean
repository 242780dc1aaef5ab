import Verif.Props.DetNaive
import Verif.Props.RoundedLup

/-
C99: how far the results of `det_naive` and `det` are from determinants in binary32.  The only
hypothesis is that the result is finite.
-/

set_option linter.unusedSectionVars false

namespace Verif
open Scalar Finset

section real

/-- One more factor. -/
theorem near_mul_step {P p t Q c d : ℝ} (hQ : Near Q (P * t)) (h : |P - p| ≤ c * |p| + d) :
    |Q - p * t| ≤ ((1 + ru) * (1 + c) - 1) * |p * t| + ((1 + ru) * (d * |t|) + rη) := by
  unfold Near at hQ
  have hu : 0 ≤ ru := by rw [Linalg.ru_eq]; norm_num
  have h1 : |P * t - p * t| ≤ c * |p * t| + d * |t| := by
    rw [← sub_mul, abs_mul, abs_mul]
    have := mul_le_mul_of_nonneg_right h (abs_nonneg t)
    linarith
  have h2 : |P * t| ≤ |p * t| + |P * t - p * t| := by
    have := abs_sub_abs_le_abs_sub (P * t) (p * t)
    linarith
  have h3 : |Q - p * t| ≤ |Q - P * t| + |P * t - p * t| := abs_sub_le _ _ _
  have h4 : ru * |P * t| ≤ ru * (|p * t| + (c * |p * t| + d * |t|)) :=
    mul_le_mul_of_nonneg_left (by linarith) hu
  linarith

/-- One more term. -/
theorem near_add_step {S s T t Q e d B : ℝ} (hQ : Near Q (S + T)) (hs : |S - s| ≤ e) (ht : |T - t| ≤ d)
    (hB : |s + t| ≤ B) :
    |Q - (s + t)| ≤ ru * B + ((1 + ru) * (e + d) + rη) := by
  unfold Near at hQ
  have hu : 0 ≤ ru := by rw [Linalg.ru_eq]; norm_num
  have h1 : |S + T - (s + t)| ≤ e + d := by
    rw [show S + T - (s + t) = (S - s) + (T - t) by ring]
    exact (abs_add_le _ _).trans (add_le_add hs ht)
  have h2 : |S + T| ≤ |s + t| + |S + T - (s + t)| := by
    have := abs_sub_abs_le_abs_sub (S + T) (s + t)
    linarith
  have h3 : |Q - (s + t)| ≤ |Q - (S + T)| + |S + T - (s + t)| := abs_sub_le _ _ _
  have h4 : ru * |S + T| ≤ ru * (B + (e + d)) := mul_le_mul_of_nonneg_left (by linarith) hu
  linarith

theorem one_le_prod_abs {ι : Type} (s : Finset ι) (g : ι → ℝ) : 1 ≤ ∏ i ∈ s, (1 + |g i|) :=
  Finset.prod_induction _ (fun x => 1 ≤ x) (fun _ _ ha hb => one_le_mul_of_one_le_of_one_le ha hb) le_rfl
    (fun i _ => by linarith [abs_nonneg (g i)])

/-- The accumulated factors for the sizes that occur. -/
theorem pow_ru_le {k : Nat} (hk : k ≤ 29) : (1 + ru) ^ k - 1 ≤ (k + 1) / 2 ^ 24 := by
  rw [Linalg.ru_eq]
  interval_cases k <;> norm_num

end real

variable {F : Type} [Scalar F] [R : Rounded F] [Propagates F]

/-- The rounded product. -/
theorem prodUp_near (n : Nat) (t : Nat → F) (h : Finite (prodUp n t)) :
    (∀ i, i < n → Finite (t i)) ∧
    |⟪prodUp n t⟫ - ∏ i ∈ range n, ⟪t i⟫| ≤ ((1 + ru) ^ n - 1) * |∏ i ∈ range n, ⟪t i⟫| +
      n * (1 + ru) ^ n * rη * ∏ i ∈ range n, (1 + |⟪t i⟫|) := by
  have hu : 0 ≤ ru := by rw [Linalg.ru_eq]; norm_num
  have hη := rη_pos
  induction n with
  | zero => exact ⟨fun i hi => by omega, by simp [prodUp, R.one_val]⟩
  | succ n ih =>
    rw [prodUp] at h
    obtain ⟨h1, h2⟩ := Propagates.mul_inv h
    obtain ⟨hf, he⟩ := ih h1
    refine ⟨fun i hi => ?_, ?_⟩
    · rcases Nat.lt_succ_iff_lt_or_eq.mp hi with hi | rfl
      · exact hf i hi
      · exact h2
    rw [prodUp, prod_range_succ, prod_range_succ]
    refine (near_mul_step (R.mul_near h1 h2 h) he).trans (add_le_add (le_of_eq ?_) ?_)
    · ring
    · have hP : 1 ≤ ∏ i ∈ range n, (1 + |⟪t i⟫|) := one_le_prod_abs _ _
      generalize ∏ i ∈ range n, (1 + |⟪t i⟫|) = P at hP
      have ha := abs_nonneg ⟪t n⟫
      generalize |⟪t n⟫| = a at ha
      have hw : 1 ≤ (1 + ru) ^ (n + 1) := one_le_pow₀ (by linarith)
      have e : (1 + ru) * (n * (1 + ru) ^ n * rη * P * a) = (n * (1 + ru) ^ (n + 1) * rη) * (P * a) := by ring
      rw [e]
      push_cast
      have hb : (n : ℝ) * (1 + ru) ^ (n + 1) * rη * (P * a) ≤ n * (1 + ru) ^ (n + 1) * rη * (P * (1 + a)) := by
        gcongr
        linarith
      have hc : rη ≤ (1 + ru) ^ (n + 1) * rη * (P * (1 + a)) := by
        have h1 : (1 : ℝ) ≤ P * (1 + a) := by nlinarith
        have h2 : (1 : ℝ) ≤ (1 + ru) ^ (n + 1) * (P * (1 + a)) := by nlinarith
        nlinarith
      linarith

/-- The rounded sum of inexact terms. -/
theorem sumUp_near (m : Nat) (T : Nat → F) (t : Nat → ℝ) (h : Finite (sumUp m T)) :
    (∀ i, i < m → Finite (T i)) ∧
    |⟪sumUp m T⟫ - ∑ i ∈ range m, t i| ≤ ((1 + ru) ^ m - 1) * (∑ i ∈ range m, |t i|) +
      (1 + ru) ^ m * (∑ i ∈ range m, |⟪T i⟫ - t i|) + m * (1 + ru) ^ m * rη := by
  have hu : 0 ≤ ru := by rw [Linalg.ru_eq]; norm_num
  have hη := rη_pos
  induction m with
  | zero => exact ⟨fun i hi => by omega, by simp [sumUp, R.zero_val]⟩
  | succ m ih =>
    rw [sumUp] at h
    obtain ⟨h1, h2⟩ := Propagates.add_inv h
    obtain ⟨hf, he⟩ := ih h1
    refine ⟨fun i hi => ?_, ?_⟩
    · rcases Nat.lt_succ_iff_lt_or_eq.mp hi with hi | rfl
      · exact hf i hi
      · exact h2
    rw [sumUp]
    simp only [sum_range_succ]
    have hB : |∑ i ∈ range m, t i + t m| ≤ (∑ i ∈ range m, |t i|) + |t m| :=
      (abs_add_le _ _).trans (add_le_add (abs_sum_le_sum_abs _ _) le_rfl)
    refine (near_add_step (R.add_near h1 h2 h) he le_rfl hB).trans ?_
    have hw : 1 ≤ (1 + ru) ^ m := one_le_pow₀ (by linarith)
    have hA : 0 ≤ ∑ i ∈ range m, |t i| := sum_nonneg fun _ _ => abs_nonneg _
    have hD : 0 ≤ ∑ i ∈ range m, |⟪T i⟫ - t i| := sum_nonneg fun _ _ => abs_nonneg _
    generalize ∑ i ∈ range m, |t i| = A at hA
    generalize ∑ i ∈ range m, |⟪T i⟫ - t i| = D at hD
    have ha := abs_nonneg (t m)
    generalize |t m| = a at ha
    have hd := abs_nonneg (⟪T m⟫ - t m)
    generalize |⟪T m⟫ - t m| = d at hd
    rw [pow_succ]
    generalize (1 + ru) ^ m = w at hw
    push_cast
    have k1 : 0 ≤ (w - 1) * (1 + ru) * a := by
      have := sub_nonneg.mpr hw
      positivity
    have k2 : 0 ≤ (w - 1) * (1 + ru) * d := by
      have := sub_nonneg.mpr hw
      positivity
    have k3 : 0 ≤ (w * (1 + ru) - 1) * rη := by
      have : 0 ≤ w * (1 + ru) - 1 := by nlinarith
      positivity
    nlinarith

/-! ### `det_naive` -/

section naive
variable {n : Nat} {f : Nat → Nat → F}

/-- The product of a permutation. -/
theorem leibniz_prod (σ : Equiv.Perm (Fin n)) (g : F → ℝ) :
    ∏ i ∈ range n, g (if h : i < n then f i (σ ⟨i, h⟩) else lit 1) = ∏ i : Fin n, g (f i (σ i)) := by
  rw [Finset.prod_range]
  simp only [Fin.is_lt, dif_pos, Fin.eta]

/-- One term. -/
theorem leibnizTerm_near (hm : Finite (lit (-1) : F) ∧ ⟪(lit (-1) : F)⟫ = -1) (σ : Equiv.Perm (Fin n))
    (h : Finite (leibnizTerm f σ)) :
    (∀ i : Fin n, Finite (f i (σ i))) ∧
    |⟪leibnizTerm f σ⟫ - ((Equiv.Perm.sign σ : ℤ) : ℝ) * ∏ i : Fin n, ⟪f i (σ i)⟫| ≤
      ((1 + ru) ^ (n + 1) - 1) * (∏ i : Fin n, |⟪f i (σ i)⟫|) +
        (n + 1) * (1 + ru) ^ (n + 1) * rη * ∏ i : Fin n, (1 + |⟪f i (σ i)⟫|) := by
  have hu : 0 ≤ ru := by rw [Linalg.ru_eq]; norm_num
  have hη := rη_pos
  unfold leibnizTerm at h
  obtain ⟨h1, h2⟩ := Propagates.mul_inv h
  obtain ⟨hf, he⟩ := prodUp_near n _ h2
  refine ⟨fun i => by simpa [i.2] using hf i i.2, ?_⟩
  have e1 := leibniz_prod (f := f) σ (fun x => ⟪x⟫)
  have e2 := leibniz_prod (f := f) σ (fun x => 1 + |⟪x⟫|)
  rw [e1, e2] at he
  have hs : ⟪(if Equiv.Perm.sign σ = 1 then lit 1 else lit (-1) : F)⟫ = ((Equiv.Perm.sign σ : ℤ) : ℝ) := by
    rcases Int.units_eq_one_or (Equiv.Perm.sign σ) with h | h
    · rw [h]; simp [R.one_val]
    · rw [h, if_neg (by decide), hm.2]; simp
  have hs1 : |((Equiv.Perm.sign σ : ℤ) : ℝ)| = 1 := by
    rcases Int.units_eq_one_or (Equiv.Perm.sign σ) with h | h <;> rw [h] <;> simp
  have hn := R.mul_near h1 h2 h
  rw [mul_comm ⟪_⟫, hs] at hn
  have := near_mul_step hn he
  rw [abs_mul, hs1, mul_one, abs_prod] at this
  unfold leibnizTerm
  rw [mul_comm ((_ : ℤ) : ℝ)]
  refine this.trans (add_le_add (le_of_eq ?_) ?_)
  · ring
  · have hP : 1 ≤ ∏ i : Fin n, (1 + |⟪f i (σ i)⟫|) := one_le_prod_abs _ _
    generalize ∏ i : Fin n, (1 + |⟪f i (σ i)⟫|) = P at hP
    have hw : 1 ≤ (1 + ru) ^ (n + 1) := one_le_pow₀ (by linarith)
    have hc : rη ≤ (1 + ru) ^ (n + 1) * rη * P := by
      have h2 : (1 : ℝ) ≤ (1 + ru) ^ (n + 1) * P := by nlinarith
      nlinarith
    have e : (1 + ru) * (n * (1 + ru) ^ n * rη * P * 1) = n * ((1 + ru) ^ (n + 1) * rη * P) := by ring
    rw [e]
    linarith

/-- The whole expansion. -/
theorem detNaive_near (hm : Finite (lit (-1) : F) ∧ ⟪(lit (-1) : F)⟫ = -1) {a : Mat F} {d : F}
    (ha : MatIs a n n f) (hd : a.detNaive = .ok d) (hfin : Finite d) :
    |⟪d⟫ - (toMatrix n n fun i j => ⟪f i j⟫).det| ≤
      (n.factorial + n + 2) / 2 ^ 24 * (∑ σ : Equiv.Perm (Fin n), ∏ i : Fin n, |⟪f i (σ i)⟫|) +
        (n.factorial + n + 2) / 2 ^ 150 *
          ∑ σ : Equiv.Perm (Fin n), ∏ i : Fin n, (1 + |⟪f i (σ i)⟫|) := by
  have hu : 0 ≤ ru := by rw [Linalg.ru_eq]; norm_num
  have hη := rη_pos
  obtain ⟨e, he⟩ := C21_expansion n ha.rpos ha.rle
  rw [he _ a _ ha] at hd
  cases hd
  obtain ⟨hT, hS⟩ := sumUp_near n.factorial _ (fun i => if h : i < n.factorial then
    ((Equiv.Perm.sign (e ⟨i, h⟩) : ℤ) : ℝ) * ∏ j : Fin n, ⟪f j (e ⟨i, h⟩ j)⟫ else 0) hfin
  simp only [Finset.sum_range, Fin.is_lt, dif_pos, Fin.eta] at hS
  rw [Equiv.sum_comp e fun σ => ((Equiv.Perm.sign σ : ℤ) : ℝ) * ∏ j : Fin n, ⟪f j (σ j)⟫,
    Equiv.sum_comp e fun σ => |((Equiv.Perm.sign σ : ℤ) : ℝ) * ∏ j : Fin n, ⟪f j (σ j)⟫|,
    Equiv.sum_comp e fun σ => |⟪leibnizTerm f σ⟫ -
      ((Equiv.Perm.sign σ : ℤ) : ℝ) * ∏ j : Fin n, ⟪f j (σ j)⟫|] at hS
  have hterm : ∀ σ : Equiv.Perm (Fin n), Finite (leibnizTerm f σ) := fun σ => by
    have := hT (e.symm σ) (e.symm σ).2
    simpa using this
  have hdet : (toMatrix n n fun i j => ⟪f i j⟫).det =
      ∑ σ : Equiv.Perm (Fin n), ((Equiv.Perm.sign σ : ℤ) : ℝ) * ∏ j : Fin n, ⟪f j (σ j)⟫ := by
    rw [← Matrix.det_transpose, Matrix.det_apply']
    rfl
  have habs : ∀ σ : Equiv.Perm (Fin n),
      |((Equiv.Perm.sign σ : ℤ) : ℝ) * ∏ j : Fin n, ⟪f j (σ j)⟫| = ∏ j : Fin n, |⟪f j (σ j)⟫| := fun σ => by
    have hs1 : |((Equiv.Perm.sign σ : ℤ) : ℝ)| = 1 := by
      rcases Int.units_eq_one_or (Equiv.Perm.sign σ) with h | h <;> rw [h] <;> simp
    rw [abs_mul, hs1, one_mul, abs_prod]
  rw [hdet]
  simp only [habs] at hS
  refine hS.trans ?_
  have hD : (∑ σ : Equiv.Perm (Fin n), |⟪leibnizTerm f σ⟫ -
      ((Equiv.Perm.sign σ : ℤ) : ℝ) * ∏ j : Fin n, ⟪f j (σ j)⟫|) ≤
      ((1 + ru) ^ (n + 1) - 1) * (∑ σ : Equiv.Perm (Fin n), ∏ i : Fin n, |⟪f i (σ i)⟫|) +
        (n + 1) * (1 + ru) ^ (n + 1) * rη *
          ∑ σ : Equiv.Perm (Fin n), ∏ i : Fin n, (1 + |⟪f i (σ i)⟫|) := by
    rw [mul_sum, mul_sum, ← sum_add_distrib]
    exact sum_le_sum fun σ _ => (leibnizTerm_near hm σ (hterm σ)).2
  have hP : 1 ≤ ∑ σ : Equiv.Perm (Fin n), ∏ i : Fin n, (1 + |⟪f i (σ i)⟫|) := by
    refine (one_le_prod_abs univ fun i : Fin n => ⟪f i ((1 : Equiv.Perm (Fin n)) i)⟫).trans ?_
    exact single_le_sum (f := fun σ : Equiv.Perm (Fin n) => ∏ i : Fin n, (1 + |⟪f i (σ i)⟫|))
      (fun σ _ => zero_le_one.trans (one_le_prod_abs _ _)) (mem_univ 1)
  have hA : 0 ≤ ∑ σ : Equiv.Perm (Fin n), ∏ i : Fin n, |⟪f i (σ i)⟫| :=
    sum_nonneg fun _ _ => prod_nonneg fun _ _ => abs_nonneg _
  generalize (∑ σ : Equiv.Perm (Fin n), |⟪leibnizTerm f σ⟫ -
      ((Equiv.Perm.sign σ : ℤ) : ℝ) * ∏ j : Fin n, ⟪f j (σ j)⟫|) = D at hD
  generalize ∑ σ : Equiv.Perm (Fin n), ∏ i : Fin n, |⟪f i (σ i)⟫| = A at hA hD
  generalize ∑ σ : Equiv.Perm (Fin n), ∏ i : Fin n, (1 + |⟪f i (σ i)⟫|) = P at hP hD
  have hk : n.factorial + (n + 1) ≤ 29 := by
    have h : n = 1 ∨ n = 2 ∨ n = 3 ∨ n = 4 := by have := ha.rpos; have := ha.rle; omega
    rcases h with rfl | rfl | rfl | rfl <;> decide
  have c1 := pow_ru_le hk
  have c0 : (1 + ru) ^ 29 ≤ 30 / 29 := by rw [Linalg.ru_eq]; norm_num
  have c2 : (1 + ru) ^ (n.factorial + (n + 1)) ≤ (1 + ru) ^ 29 := pow_le_pow_right₀ (by linarith) hk
  have c3 : (1 + ru) ^ n.factorial ≤ (1 + ru) ^ (n.factorial + (n + 1)) :=
    pow_le_pow_right₀ (by linarith) (by omega)
  rw [pow_add] at c1 c2 c3
  have w1 : 1 ≤ (1 + ru) ^ n.factorial := one_le_pow₀ (by linarith)
  have w2 : 1 ≤ (1 + ru) ^ (n + 1) := one_le_pow₀ (by linarith)
  have hN : ((n.factorial + (n + 1) : ℕ) : ℝ) = n.factorial + n + 1 := by push_cast; ring
  rw [hN] at c1
  have hM : (n.factorial : ℝ) + n + 1 ≤ 29 := by rw [← hN]; exact_mod_cast hk
  have hm0 : (0 : ℝ) ≤ n.factorial := Nat.cast_nonneg _
  have hn0 : (0 : ℝ) ≤ n := Nat.cast_nonneg _
  generalize (n.factorial : ℝ) = m at *
  generalize (n : ℝ) = k at *
  generalize (1 + ru) ^ n.factorial = v at *
  generalize (1 + ru) ^ (n + 1) = w at *
  have k1 : v * D ≤ v * ((w - 1) * A + (k + 1) * w * rη * P) := by gcongr
  have k2 : (v * w - 1) * A ≤ (m + k + 1 + 1) / 2 ^ 24 * A := by gcongr
  have hvw : v * w ≤ 30 / 29 := c2.trans c0
  have hv : v ≤ 30 / 29 := c3.trans hvw
  have k3 : (k + 1) * (v * w) * (rη * P) ≤ (k + 1) * (30 / 29) * (rη * P) := by gcongr
  have k4 : m * v * rη ≤ m * (30 / 29) * (rη * P) := by
    have : rη ≤ rη * P := le_mul_of_one_le_right hη.le hP
    gcongr
  have k5 : (m + k + 1) * (30 / 29) * (rη * P) ≤ (m + k + 2) * (rη * P) := by
    gcongr
    linarith
  have h3 : (m + k + 2) / 2 ^ 150 * P = (m + k + 2) * (rη * P) := by rw [rη_eq]; ring
  rw [h3]
  rw [show m + k + 1 + 1 = m + k + 2 by ring] at k2
  nlinarith

end naive

/-- C99: a finite result of `det_naive` in binary32 is the determinant up to a few units in the last
place of the sum of the magnitudes of its terms. -/
theorem C99_naive {n : Nat} {a : Mat F32} {A : Nat → Nat → F32} {d : F32} (ha : MatIs a n n A)
    (hd : a.detNaive = .ok d) (hf : Finite d) :
    |⟪d⟫ - Matrix.det (fun i j : Fin n => ⟪A i j⟫)| ≤
      (n.factorial + n + 2) / 2 ^ 24 * (∑ σ : Equiv.Perm (Fin n), ∏ i : Fin n, |⟪A i (σ i)⟫|) +
        (n.factorial + n + 2) / 2 ^ 150 *
          ∑ σ : Equiv.Perm (Fin n), ∏ i : Fin n, (1 + |⟪A i (σ i)⟫|) :=
  detNaive_near ⟨by decide +kernel, by rw [val_lit (by decide +kernel)]; norm_num⟩ ha hd hf

/-! ### `det` -/

section lup
variable {n : Nat}

/-- The value computed by `det` from the factors. -/
theorem det_eq_f32 {a lu : Mat F} {p : Vec Nat} {π : Nat → Nat} {A f : Nat → Nat → F}
    (ha : MatIs a n n A) (h : Linalg.lup a = .ok (lu, p)) (hI : Linalg.LupNear n A (n - 1) (lu, p) π f) :
    a.det = .ok (
      if #{i : Fin n | hI.perm.toPerm i ≠ i} ≠ 0 ∧ (#{i : Fin n | hI.perm.toPerm i ≠ i} - 1) % 2 = 1
        then Scalar.neg (prodUp n fun k => f (π k) k) else prodUp n fun k => f (π k) k) := by
  unfold Mat.det
  simp only [Mat.isSquare_eq ha, Res.ok_bind, decide_true, Bool.not_true, Bool.false_eq_true, if_false,
    h, ha.rows_eq]
  rw [prodUp_fold (ε := LinalgError) (t := fun k => f (π k) k) (fun i acc hi => by
    simp only [hI.p.get i hi, hI.lu.get _ _ (hI.perm.lt i hi) hi, Res.ok_bind]), Res.ok_bind]
  have h2 := foldRange_ok (ε := LinalgError)
    (fun row (col : Nat) => do
      if (← p.getElementU8 row) ≠ row then .ok (col + 1) else .ok col)
    (fun k => #{i ∈ range k | π i ≠ i}) 0 n (Nat.zero_le _)
    (fun i _ hi => by
      simp only [hI.p.get i hi, Res.ok_bind, Finset.range_add_one, Finset.filter_insert]
      by_cases hp : π i = i
      · simp [hp]
      · simp [hp])
  simp only [Finset.range_zero, Finset.filter_empty, Finset.card_empty] at h2
  rw [h2, Res.ok_bind]
  have hc : #{i ∈ range n | π i ≠ i} = #{i : Fin n | hI.perm.toPerm i ≠ i} := by
    rw [Finset.card_filter, Finset.card_filter, Finset.sum_range]
    refine Finset.sum_congr rfl fun i _ => ?_
    have : (hI.perm.toPerm i ≠ i) ↔ (π i.val ≠ i.val) := by
      rw [ne_eq, Fin.ext_iff, PermOn.toPerm_val]
    simp only [this]
  rw [hc]
  split <;> rfl

theorem det_unitLower (w : Matrix (Fin n) (Fin n) ℝ) : (unitLower w).det = 1 := by
  rw [Matrix.det_of_isLowerTriangular _ fun i j h => ?_]
  · simp [unitLower]
  · have h : i < j := h
    simp [unitLower, h.not_gt, h.ne']

theorem det_upper (w : Matrix (Fin n) (Fin n) ℝ) : (upper w).det = ∏ k, w k k := by
  rw [Matrix.det_of_isUpperTriangular fun i j h => ?_]
  · simp [upper]
  · have h : j < i := h
    simp [upper, h]

/-- A negated number is finite only if the number is. -/
theorem F32.finite_of_neg {x : F32} (h : Finite (Scalar.neg x)) : Finite x := by
  obtain ⟨v⟩ := x
  rcases v with q | _ | _ | _
  · exact F32.finite_of_fin rfl
  all_goals exact absurd h (by decide +kernel)

/-- C99: a finite result of `det` in binary32 is, up to a few units in the last place and up to the sign,
the determinant of a matrix `B` whose difference from the argument has the bound of `lup`.  The sign is
wrong exactly when the pivot order exchanges two disjoint pairs of the four rows. -/
theorem C99_det {a : Mat F32} {A : Nat → Nat → F32} {d : F32} (ha : MatIs a n n A) (hd : a.det = .ok d)
    (hf : Finite d) :
    ∃ (lu : Mat F32) (p : Vec Nat) (σ : Equiv.Perm (Fin n)) (w : Fin n → Fin n → F32)
      (B : Matrix (Fin n) (Fin n) ℝ),
      Linalg.lup a = .ok (lu, p) ∧ (∀ i : Fin n, p.getElementU8 i = .ok (σ i)) ∧
      (∀ i j : Fin n, lu.getElement (σ i) j = .ok (w i j)) ∧
      (∀ i j : Fin n, |⟪A (σ i) j⟫ - B (σ i) j| ≤ lupErr (valM w) i j) ∧
      |⟪d⟫ - (if DoubleSwap σ then -B.det else B.det)| ≤
        (n + 1) / 2 ^ 24 * |B.det| + (n + 1) / 2 ^ 150 * ∏ k, (1 + |⟪w k k⟫|) := by
  rcases e : Linalg.lup a with err | ⟨lu, p⟩
  · unfold Mat.det at hd
    simp only [Mat.isSquare_eq ha, Res.ok_bind, decide_true, Bool.not_true, Bool.false_eq_true, if_false,
      e] at hd
    cases hd
  obtain ⟨_, π, f, hI⟩ := Linalg.lup_inv ha e
  rw [det_eq_f32 ha e hI] at hd
  have hs := sign_rule ha.rle hI.perm.toPerm
  set σ := hI.perm.toPerm with hσ
  set W : Matrix (Fin n) (Fin n) ℝ := valM fun i j : Fin n => f (π i) j with hW
  have hB : ((unitLower W * upper W).submatrix σ.symm id).det =
      ((Equiv.Perm.sign σ : ℤ) : ℝ) * ∏ k : Fin n, ⟪f (π k) k⟫ := by
    rw [Matrix.det_permute, Matrix.det_mul, det_unitLower, det_upper, Equiv.Perm.sign_symm]
    simp [hW, valM]
  refine ⟨lu, p, σ, fun i j => f (π i) j, (unitLower W * upper W).submatrix σ.symm id, rfl,
    fun i => hI.p.get i i.2, fun i j => ?_, fun i j => ?_, ?_⟩
  · rw [PermOn.toPerm_val]
    exact hI.lu.get _ _ (hI.perm.lt i i.2) j.2
  · rw [Matrix.submatrix_apply, Equiv.symm_apply_apply]
    exact lupErr_of hI i j
  rw [hB]
  have hs1 : |((Equiv.Perm.sign σ : ℤ) : ℝ)| = 1 := by
    rcases Int.units_eq_one_or (Equiv.Perm.sign σ) with h | h <;> rw [h] <;> simp
  rw [abs_mul, hs1, one_mul]
  -- the product of the pivots
  have hP : Finite (prodUp n fun k => f (π k) k) := by
    have hd := (Except.ok.inj hd).symm
    rw [hd] at hf
    split at hf
    · exact F32.finite_of_neg hf
    · exact hf
  have hv : ⟪d⟫ = (if DoubleSwap σ then -((Equiv.Perm.sign σ : ℤ) : ℝ) else ((Equiv.Perm.sign σ : ℤ) : ℝ)) *
      ⟪prodUp n fun k => f (π k) k⟫ := by
    have hd := (Except.ok.inj hd).symm
    have hs' := congrArg (fun z : ℤ => (z : ℝ)) hs
    simp only [Int.cast_mul, apply_ite (fun z : ℤ => (z : ℝ)), Int.cast_neg, Int.cast_one] at hs'
    have e1 : (if DoubleSwap σ then -((Equiv.Perm.sign σ : ℤ) : ℝ) else ((Equiv.Perm.sign σ : ℤ) : ℝ)) =
        (if DoubleSwap σ then -1 else 1) * ((Equiv.Perm.sign σ : ℤ) : ℝ) := by split <;> simp
    rw [e1, ← hs', hd]
    split
    · rw [Rounded.neg_val hP]; simp
    · simp
  have hn := (prodUp_near n _ hP).2
  simp only [Finset.prod_range] at hn
  have hu : 0 ≤ ru := by rw [Linalg.ru_eq]; norm_num
  have hη := rη_pos
  have hk : n ≤ 29 := by have := ha.rle; omega
  have c1 := pow_ru_le hk
  have c2 : (1 + ru) ^ n ≤ (1 + ru) ^ 4 := pow_le_pow_right₀ (by linarith) ha.rle
  have c3 : (1 + ru) ^ 4 ≤ 5 / 4 := by rw [Linalg.ru_eq]; norm_num
  have hn4 : (n : ℝ) ≤ 4 := by exact_mod_cast ha.rle
  have hn0 : (0 : ℝ) ≤ n := Nat.cast_nonneg _
  have h1 : |⟪d⟫ - (if DoubleSwap σ then -(((Equiv.Perm.sign σ : ℤ) : ℝ) * ∏ k : Fin n, ⟪f (π k) k⟫)
      else ((Equiv.Perm.sign σ : ℤ) : ℝ) * ∏ k : Fin n, ⟪f (π k) k⟫)| =
      |⟪prodUp n fun k => f (π k) k⟫ - ∏ k : Fin n, ⟪f (π k) k⟫| := by
    rw [hv]
    split
    · rw [← neg_mul, ← mul_sub, abs_mul, abs_neg, hs1, one_mul]
    · rw [← mul_sub, abs_mul, hs1, one_mul]
  rw [h1]
  refine hn.trans (add_le_add (by gcongr) ?_)
  have hp := one_le_prod_abs univ fun k : Fin n => ⟪f (π k) k⟫
  have h3 : ((n : ℝ) + 1) / 2 ^ 150 = (n + 1) * rη := by rw [rη_eq]; ring
  rw [h3]
  gcongr
  have := c2.trans c3
  calc (n : ℝ) * (1 + ru) ^ n ≤ n * (5 / 4) := by gcongr
    _ ≤ _ := by linarith

end lup

/-! ### Cases in binary32 -/

/-- Beside `C99_naive` and `C99_det`: a matrix with determinant -0.003.  Every term and every pivot is rounded, and
the two results differ. -/
example : (fmat [[1 / 10, 2 / 10, 3 / 10], [4 / 10, 5 / 10, 6 / 10], [7 / 10, 8 / 10, 1]]).detNaive =
      .ok ⟨.fin (-201327 / 67108864)⟩ ∧
    (fmat [[1 / 10, 2 / 10, 3 / 10], [4 / 10, 5 / 10, 6 / 10], [7 / 10, 8 / 10, 1]]).det =
      .ok ⟨.fin (-12884887 / 4294967296)⟩ := by
  decide +kernel

/-- Beside `C99_det`: two pairs of rows are exchanged and the result has the wrong sign. -/
example : (fmat [[0, 1 / 10, 0, 0], [1 / 10, 0, 0, 0], [0, 0, 0, 1 / 10], [0, 0, 1 / 10, 0]]).det =
    .ok ⟨.fin (-1717987 / 17179869184)⟩ := by
  decide +kernel

end Verif
