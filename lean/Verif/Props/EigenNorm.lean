import Mathlib.Analysis.CStarAlgebra.Matrix
import Verif.Props.Norms
import Verif.Lib.Exact

/-
Steps of the QR iteration with errors, in the operator norm of real matrices (for C117).
-/

set_option linter.unusedSectionVars false

namespace Verif
open Finset
open scoped Matrix.Norms.L2Operator Matrix

section
variable {n : ℕ} {A B Q R V V' B' : Matrix (Fin n) (Fin n) ℝ}

/-- The length of a vector with `n` real components. -/
noncomputable def vlen (x : Fin n → ℝ) : ℝ := ‖(WithLp.toLp 2 x : EuclideanSpace ℝ (Fin n))‖

theorem vlen_nonneg (x : Fin n → ℝ) : 0 ≤ vlen x := norm_nonneg _

theorem vlen_sq (x : Fin n → ℝ) : vlen x ^ 2 = x ⬝ᵥ x := by
  unfold vlen
  rw [EuclideanSpace.norm_sq_eq]
  simp [dotProduct, sq]

theorem vlen_mulVec_le (A : Matrix (Fin n) (Fin n) ℝ) (x : Fin n → ℝ) : vlen (A *ᵥ x) ≤ ‖A‖ * vlen x :=
  Matrix.l2_opNorm_mulVec A (WithLp.toLp 2 x)

theorem vlen_add_le (x y : Fin n → ℝ) : vlen (x + y) ≤ vlen x + vlen y :=
  norm_add_le (WithLp.toLp 2 x : EuclideanSpace ℝ (Fin n)) (WithLp.toLp 2 y)

theorem dot_le (x y : Fin n → ℝ) : |x ⬝ᵥ y| ≤ vlen x * vlen y := by
  have := abs_real_inner_le_norm (WithLp.toLp 2 x : EuclideanSpace ℝ (Fin n)) (WithLp.toLp 2 y)
  simpa [vlen, PiLp.inner_apply, dotProduct, mul_comm] using this

theorem elem_le_vlen (x : Fin n → ℝ) (i : Fin n) : |x i| ≤ vlen x := by
  have := PiLp.norm_apply_le (WithLp.toLp 2 x : EuclideanSpace ℝ (Fin n)) i
  simpa [vlen] using this

theorem vlen_single (i : Fin n) : vlen (Pi.single i (1 : ℝ)) = 1 := by
  simp [vlen]

theorem opNorm_le {c : ℝ} (hc : 0 ≤ c) (h : ∀ x : Fin n → ℝ, vlen (A *ᵥ x) ≤ c * vlen x) : ‖A‖ ≤ c := by
  rw [Matrix.cstar_norm_def]
  exact ContinuousLinearMap.opNorm_le_bound _ hc fun x => h x.ofLp

/-- Columns and rows are not longer than the norm. -/
theorem col_le (A : Matrix (Fin n) (Fin n) ℝ) (j : Fin n) : vlen (fun i => A i j) ≤ ‖A‖ := by
  have := vlen_mulVec_le A (Pi.single j 1)
  rw [vlen_single, mul_one, Matrix.mulVec_single_one] at this
  exact this

theorem norm_transpose' (A : Matrix (Fin n) (Fin n) ℝ) : ‖A.transpose‖ = ‖A‖ := by
  rw [← Matrix.l2_opNorm_conjTranspose A, Matrix.conjTranspose_eq_transpose_of_trivial]

theorem row_le (A : Matrix (Fin n) (Fin n) ℝ) (i : Fin n) : vlen (fun j => A i j) ≤ ‖A‖ := by
  have := col_le A.transpose i
  rwa [norm_transpose'] at this

theorem entry_le (A : Matrix (Fin n) (Fin n) ℝ) (i j : Fin n) : |A i j| ≤ ‖A‖ :=
  (elem_le_vlen (fun i => A i j) i).trans (col_le A j)

/-- A matrix with small elements has a small norm. -/
theorem norm_le_entries {c : ℝ} (hc : 0 ≤ c) (h : ∀ i j, |A i j| ≤ c) : ‖A‖ ≤ n * c := by
  refine opNorm_le (by positivity) fun x => ?_
  have h1 : vlen (A *ᵥ x) ^ 2 ≤ (n * c * vlen x) ^ 2 := by
    have hrow : ∀ i, vlen (fun j => A i j) ^ 2 ≤ n * c ^ 2 := by
      intro i
      rw [vlen_sq]
      calc (fun j => A i j) ⬝ᵥ (fun j => A i j) = ∑ j, A i j * A i j := rfl
        _ ≤ ∑ _j : Fin n, c ^ 2 := Finset.sum_le_sum fun j _ => by
            rw [← abs_mul_abs_self, sq]
            exact mul_self_le_mul_self (abs_nonneg _) (h i j)
        _ = n * c ^ 2 := by simp
    rw [vlen_sq]
    calc (A *ᵥ x) ⬝ᵥ (A *ᵥ x) = ∑ i, (A *ᵥ x) i * (A *ᵥ x) i := rfl
      _ ≤ ∑ _i : Fin n, n * c ^ 2 * vlen x ^ 2 := Finset.sum_le_sum fun i _ => by
          have k := dot_le (fun j => A i j) x
          have k2 := mul_self_le_mul_self (abs_nonneg _) k
          rw [abs_mul_abs_self] at k2
          have k3 := mul_le_mul_of_nonneg_right (hrow i) (sq_nonneg (vlen x))
          show ((fun j => A i j) ⬝ᵥ x) * ((fun j => A i j) ⬝ᵥ x) ≤ _
          linarith
      _ = (n * c * vlen x) ^ 2 := by
          rw [Finset.sum_const, Finset.card_univ, Fintype.card_fin, nsmul_eq_mul]
          ring
  exact le_of_sq_le_sq h1 (mul_nonneg (by positivity) (vlen_nonneg x))

/-- The sum of the magnitudes in one element of a product. -/
theorem sum_abs_mul_le (A B : Matrix (Fin n) (Fin n) ℝ) (i j : Fin n) : ∑ t, |A i t * B t j| ≤ ‖A‖ * ‖B‖ := by
  have h := dot_le (fun t => |A i t|) (fun t => |B t j|)
  have e : ∀ x : Fin n → ℝ, vlen (fun t => |x t|) = vlen x := fun x => by
    rw [← sq_eq_sq₀ (vlen_nonneg _) (vlen_nonneg _), vlen_sq, vlen_sq]
    exact Finset.sum_congr rfl fun t _ => abs_mul_abs_self _
  rw [e (fun t => A i t), e (fun t => B t j)] at h
  have h2 : ∑ t, |A i t * B t j| = (fun t => |A i t|) ⬝ᵥ (fun t => |B t j|) :=
    Finset.sum_congr rfl fun t _ => abs_mul _ _
  rw [h2]
  exact (le_abs_self _).trans (h.trans (mul_le_mul (row_le A i) (col_le B j) (vlen_nonneg _) (norm_nonneg _)))

/-- A product computed with small errors. -/
theorem mul_err {u η : ℝ} {C : Matrix (Fin n) (Fin n) ℝ} (hn : n ≤ 4) (hu : 0 ≤ u) (hη : 0 ≤ η)
    (h : ∀ i j, |C i j - ∑ t, A i t * B t j| ≤ 12 * u * ∑ t, |A i t * B t j| + η) :
    ‖C - A * B‖ ≤ 48 * u * (‖A‖ * ‖B‖) + 4 * η := by
  have hb : ∀ i j, |(C - A * B) i j| ≤ 12 * u * (‖A‖ * ‖B‖) + η := fun i j => by
    rw [Matrix.sub_apply, Matrix.mul_apply]
    have := mul_le_mul_of_nonneg_left (sum_abs_mul_le A B i j) (show 0 ≤ 12 * u by positivity)
    linarith [h i j]
  have h0 : 0 ≤ 12 * u * (‖A‖ * ‖B‖) + η := by positivity
  refine (norm_le_entries h0 hb).trans ?_
  have : (n : ℝ) ≤ 4 := by exact_mod_cast hn
  nlinarith

theorem dot_transpose (V : Matrix (Fin n) (Fin n) ℝ) (x w : Fin n → ℝ) : x ⬝ᵥ (V.transpose *ᵥ w) = (V *ᵥ x) ⬝ᵥ w := by
  rw [Matrix.dotProduct_mulVec x V.transpose w, Matrix.vecMul_transpose]

/-- A nearly orthogonal matrix does not stretch much. -/
theorem norm_ortho {k : ℝ} (h : ‖Q.transpose * Q - 1‖ ≤ k) (hn : 0 < n) : ‖Q‖ ^ 2 ≤ 1 + k := by
  have h1 : ‖Q‖ ^ 2 = ‖Q.transpose * Q‖ := by
    rw [sq, ← Matrix.l2_opNorm_conjTranspose_mul_self, Matrix.conjTranspose_eq_transpose_of_trivial]
  have : Nonempty (Fin n) := ⟨⟨0, hn⟩⟩
  have h2 : ‖(1 : Matrix (Fin n) (Fin n) ℝ)‖ = 1 := norm_one
  rw [h1]
  have := norm_add_le (Q.transpose * Q - 1) 1
  rw [sub_add_cancel, h2] at this
  linarith

/-- Nor does it shrink much, from either side. -/
theorem ortho_low {c : ℝ} (h : ‖V.transpose * V - 1‖ ≤ c) (x : Fin n → ℝ) : (1 - c) * vlen x ^ 2 ≤ vlen (V *ᵥ x) ^ 2 := by
  have e : vlen (V *ᵥ x) ^ 2 = vlen x ^ 2 + x ⬝ᵥ ((V.transpose * V - 1) *ᵥ x) := by
    rw [vlen_sq, vlen_sq, Matrix.sub_mulVec, Matrix.one_mulVec, dotProduct_sub, ← Matrix.mulVec_mulVec,
      dot_transpose]
    ring
  have k := dot_le x ((V.transpose * V - 1) *ᵥ x)
  have k2 := vlen_mulVec_le (V.transpose * V - 1) x
  have k3 := mul_le_mul_of_nonneg_right h (vlen_nonneg x)
  have k4 := mul_le_mul_of_nonneg_left (k2.trans k3) (vlen_nonneg x)
  have := (abs_le.mp k).1
  rw [e]
  nlinarith

theorem ortho_low' {c : ℝ} (h : ‖V.transpose * V - 1‖ ≤ c) (hc : c < 1) (y : Fin n → ℝ) :
    (1 - c) * vlen y ^ 2 ≤ vlen (V.transpose *ᵥ y) ^ 2 := by
  have hinj : Function.Injective V.mulVecLin := by
    rw [injective_iff_map_eq_zero]
    intro x hx
    have h1 := ortho_low h x
    rw [show V *ᵥ x = 0 from hx] at h1
    have h0 : vlen (0 : Fin n → ℝ) = 0 := by simp [vlen]
    rw [h0] at h1
    have h2 : vlen x ^ 2 ≤ 0 := by nlinarith [sq_nonneg (vlen x)]
    have h3 : vlen x = 0 := by nlinarith [sq_nonneg (vlen x)]
    have h4 : (WithLp.toLp 2 x : EuclideanSpace ℝ (Fin n)) = 0 := norm_eq_zero.mp h3
    simpa using h4
  obtain ⟨x, rfl⟩ := LinearMap.injective_iff_surjective.mp hinj y
  show (1 - c) * vlen (V *ᵥ x) ^ 2 ≤ vlen (V.transpose *ᵥ (V *ᵥ x)) ^ 2
  have h1 := ortho_low h x
  have h2 : vlen (V *ᵥ x) ^ 2 ≤ vlen x * vlen (V.transpose *ᵥ (V *ᵥ x)) := by
    refine le_trans (le_of_eq ?_) ((le_abs_self _).trans (dot_le x (V.transpose *ᵥ (V *ᵥ x))))
    rw [vlen_sq, dot_transpose]
  have a1 := vlen_nonneg (V *ᵥ x)
  have a2 := vlen_nonneg x
  have a3 := vlen_nonneg (V.transpose *ᵥ (V *ᵥ x))
  generalize vlen (V *ᵥ x) = p at *
  generalize vlen x = q at *
  generalize vlen (V.transpose *ᵥ (V *ᵥ x)) = w at *
  have hc' : 0 < 1 - c := by linarith
  by_contra hneg
  rw [not_le] at hneg
  have h3 : p ^ 2 * p ^ 2 ≤ q ^ 2 * w ^ 2 := by nlinarith [mul_nonneg a2 a3]
  rcases a1.eq_or_lt with hp | hp
  · rw [← hp] at hneg
    nlinarith [sq_nonneg w]
  · have h4 : 0 < p ^ 2 := by positivity
    have h5 : (1 - c) * (p ^ 2 * p ^ 2) ≤ (1 - c) * (q ^ 2 * w ^ 2) := mul_le_mul_of_nonneg_left h3 hc'.le
    have h6 : (1 - c) * q ^ 2 * w ^ 2 ≤ p ^ 2 * w ^ 2 := mul_le_mul_of_nonneg_right h1 (sq_nonneg w)
    nlinarith

/-- The iterate is bounded. -/
theorem iter_norm {c b M : ℝ} (hn : 0 < n) (hV : ‖V.transpose * V - 1‖ ≤ c) (hB : ‖B - V.transpose * A * V‖ ≤ b) (hA : ‖A‖ ≤ M) :
    ‖B‖ ≤ (1 + c) * M + b := by
  have h1 := norm_ortho hV hn
  have h2 : ‖V.transpose * A * V‖ ≤ (1 + c) * M := by
    calc ‖V.transpose * A * V‖ ≤ ‖V.transpose‖ * ‖A‖ * ‖V‖ :=
          (norm_mul_le _ _).trans (mul_le_mul_of_nonneg_right (norm_mul_le _ _) (norm_nonneg _))
      _ = ‖V‖ ^ 2 * ‖A‖ := by rw [norm_transpose']; ring
      _ ≤ (1 + c) * M := mul_le_mul h1 hA (norm_nonneg _) ((sq_nonneg _).trans h1)
  have := norm_add_le (B - V.transpose * A * V) (V.transpose * A * V)
  rw [sub_add_cancel] at this
  linarith

/-- The iterate does not shrink more than the matrix. -/
theorem iter_low {c b σ : ℝ} (hV : ‖V.transpose * V - 1‖ ≤ c) (hc : c < 1) (hB : ‖B - V.transpose * A * V‖ ≤ b) (hσ : 0 ≤ σ)
    (hA : ∀ x : Fin n → ℝ, σ * vlen x ≤ vlen (A *ᵥ x)) (x : Fin n → ℝ) : ((1 - c) * σ - b) * vlen x ≤ vlen (B *ᵥ x) := by
  have hc' : 0 < 1 - c := by linarith
  have h1 := ortho_low hV x
  have h2 := hA (V *ᵥ x)
  have h3 := ortho_low' hV hc (A *ᵥ (V *ᵥ x))
  have e : B *ᵥ x = V.transpose *ᵥ (A *ᵥ (V *ᵥ x)) + (B - V.transpose * A * V) *ᵥ x := by
    rw [Matrix.sub_mulVec, Matrix.mulVec_mulVec, Matrix.mulVec_mulVec, add_sub_cancel]
  have h4 : vlen (V.transpose *ᵥ (A *ᵥ (V *ᵥ x))) ≤ vlen (B *ᵥ x) + b * vlen x := by
    have k1 := vlen_add_le (B *ᵥ x) (-((B - V.transpose * A * V) *ᵥ x))
    have k2 : vlen (-((B - V.transpose * A * V) *ᵥ x)) ≤ b * vlen x := by
      rw [← Matrix.neg_mulVec]
      refine (vlen_mulVec_le _ x).trans (mul_le_mul_of_nonneg_right ?_ (vlen_nonneg x))
      rwa [norm_neg]
    have e2 : V.transpose *ᵥ (A *ᵥ (V *ᵥ x)) = B *ᵥ x + -((B - V.transpose * A * V) *ᵥ x) := by
      rw [e]
      abel
    rw [e2]
    linarith
  have h5 : ((1 - c) * (σ * vlen x)) ^ 2 ≤ vlen (V.transpose *ᵥ (A *ᵥ (V *ᵥ x))) ^ 2 := by
    refine le_trans ?_ h3
    have k1 : (σ * vlen (V *ᵥ x)) ^ 2 ≤ vlen (A *ᵥ (V *ᵥ x)) ^ 2 :=
      pow_le_pow_left₀ (mul_nonneg hσ (vlen_nonneg _)) h2 2
    have k2 := mul_le_mul_of_nonneg_left h1 (sq_nonneg σ)
    have k3 : (1 - c) * (σ ^ 2 * ((1 - c) * vlen x ^ 2)) ≤ (1 - c) * vlen (A *ᵥ (V *ᵥ x)) ^ 2 :=
      mul_le_mul_of_nonneg_left (by linarith [mul_pow σ (vlen (V *ᵥ x)) 2]) hc'.le
    calc ((1 - c) * (σ * vlen x)) ^ 2 = (1 - c) * (σ ^ 2 * ((1 - c) * vlen x ^ 2)) := by ring
      _ ≤ _ := k3
  have h6 := le_of_sq_le_sq h5 (vlen_nonneg _)
  linarith

/-- Orthogonality of the product of the factors. -/
theorem iter_ortho {c k e : ℝ} (hn : 0 < n) (hV : ‖V.transpose * V - 1‖ ≤ c) (hQ : ‖Q.transpose * Q - 1‖ ≤ k) (hc1 : c ≤ 1 / 100)
    (hk1 : k ≤ 1 / 100) (he : ‖V' - V * Q‖ ≤ e) (he1 : e ≤ 1 / 1000) :
    ‖V'.transpose * V' - 1‖ ≤ (1 + k) * c + k + 203 / 100 * e := by
  have q2 := norm_ortho hQ hn
  have v2 := norm_ortho hV hn
  have e0 : 0 ≤ e := (norm_nonneg _).trans he
  have c0 : 0 ≤ c := (norm_nonneg _).trans hV
  have hVQ : ‖V * Q‖ ≤ 101 / 100 := by
    refine (norm_mul_le _ _).trans (le_of_sq_le_sq ?_ (by norm_num))
    rw [mul_pow]
    calc ‖V‖ ^ 2 * ‖Q‖ ^ 2 ≤ (1 + 1 / 100) * (1 + 1 / 100) :=
          mul_le_mul (by linarith) (by linarith) (sq_nonneg _) (by norm_num)
      _ = (101 / 100) ^ 2 := by norm_num
  obtain ⟨E, rfl⟩ : ∃ E, V' = V * Q + E := ⟨V' - V * Q, by abel⟩
  rw [add_sub_cancel_left] at he
  have e1 : (V * Q + E).transpose * (V * Q + E) - 1 = (Q.transpose * (V.transpose * V - 1) * Q + (Q.transpose * Q - 1)) +
      ((E.transpose * (V * Q) + (V * Q).transpose * E) + E.transpose * E) := by
    rw [Matrix.transpose_add, Matrix.transpose_mul]
    noncomm_ring
  rw [e1]
  have t1 : ‖Q.transpose * (V.transpose * V - 1) * Q‖ ≤ (1 + k) * c := by
    calc _ ≤ ‖Q.transpose‖ * ‖V.transpose * V - 1‖ * ‖Q‖ :=
          (norm_mul_le _ _).trans (mul_le_mul_of_nonneg_right (norm_mul_le _ _) (norm_nonneg _))
      _ = ‖Q‖ ^ 2 * ‖V.transpose * V - 1‖ := by rw [norm_transpose']; ring
      _ ≤ _ := mul_le_mul q2 hV (norm_nonneg _) ((sq_nonneg _).trans q2)
  have t2 : ‖E.transpose * (V * Q)‖ ≤ e * (101 / 100) :=
    (norm_mul_le _ _).trans (mul_le_mul (by rwa [norm_transpose']) hVQ (norm_nonneg _) e0)
  have t3 : ‖(V * Q).transpose * E‖ ≤ 101 / 100 * e :=
    (norm_mul_le _ _).trans (mul_le_mul (by rwa [norm_transpose']) he (norm_nonneg _) (by norm_num))
  have t4 : ‖E.transpose * E‖ ≤ e * (1 / 1000) :=
    (norm_mul_le _ _).trans (mul_le_mul (by rwa [norm_transpose']) (he.trans he1) (norm_nonneg _) e0)
  have := norm_add_le (Q.transpose * (V.transpose * V - 1) * Q + (Q.transpose * Q - 1))
    ((E.transpose * (V * Q) + (V * Q).transpose * E) + E.transpose * E)
  have := norm_add_le (Q.transpose * (V.transpose * V - 1) * Q) (Q.transpose * Q - 1)
  have := norm_add_le (E.transpose * (V * Q) + (V * Q).transpose * E) (E.transpose * E)
  have := norm_add_le (E.transpose * (V * Q)) ((V * Q).transpose * E)
  linarith

/-- Similarity after one step. -/
theorem iter_similar {c b k e d M : ℝ} (hn : 0 < n) (hV : ‖V.transpose * V - 1‖ ≤ c) (hQ : ‖Q.transpose * Q - 1‖ ≤ k)
    (hc1 : c ≤ 1 / 100) (hk1 : k ≤ 1 / 100) (hA : ‖A‖ ≤ M) (hB : ‖B - V.transpose * A * V‖ ≤ b) (he : ‖V' - V * Q‖ ≤ e)
    (he1 : e ≤ 1 / 1000) (hd : ‖B' - Q.transpose * B * Q‖ ≤ d) :
    ‖B' - V'.transpose * A * V'‖ ≤ (1 + k) * b + d + 203 / 100 * e * M := by
  have q2 := norm_ortho hQ hn
  have v2 := norm_ortho hV hn
  have e0 : 0 ≤ e := (norm_nonneg _).trans he
  have M0 : 0 ≤ M := (norm_nonneg _).trans hA
  have hVQ : ‖V * Q‖ ≤ 101 / 100 := by
    refine (norm_mul_le _ _).trans (le_of_sq_le_sq ?_ (by norm_num))
    rw [mul_pow]
    calc ‖V‖ ^ 2 * ‖Q‖ ^ 2 ≤ (1 + 1 / 100) * (1 + 1 / 100) :=
          mul_le_mul (by linarith) (by linarith) (sq_nonneg _) (by norm_num)
      _ = (101 / 100) ^ 2 := by norm_num
  obtain ⟨E, rfl⟩ : ∃ E, V' = V * Q + E := ⟨V' - V * Q, by abel⟩
  rw [add_sub_cancel_left] at he
  have e1 : B' - (V * Q + E).transpose * A * (V * Q + E) = (B' - Q.transpose * B * Q) +
      Q.transpose * (B - V.transpose * A * V) * Q -
      ((E.transpose * A * (V * Q) + (V * Q).transpose * A * E) + E.transpose * A * E) := by
    rw [Matrix.transpose_add, Matrix.transpose_mul]
    noncomm_ring
  rw [e1]
  have t1 : ‖Q.transpose * (B - V.transpose * A * V) * Q‖ ≤ (1 + k) * b := by
    calc _ ≤ ‖Q.transpose‖ * ‖B - V.transpose * A * V‖ * ‖Q‖ :=
          (norm_mul_le _ _).trans (mul_le_mul_of_nonneg_right (norm_mul_le _ _) (norm_nonneg _))
      _ = ‖Q‖ ^ 2 * ‖B - V.transpose * A * V‖ := by rw [norm_transpose']; ring
      _ ≤ _ := mul_le_mul q2 hB (norm_nonneg _) ((sq_nonneg _).trans q2)
  have p : ∀ X Y : Matrix (Fin n) (Fin n) ℝ, ∀ x y : ℝ, ‖X‖ ≤ x → ‖Y‖ ≤ y → ‖X.transpose * A * Y‖ ≤ x * M * y := by
    intro X Y x y hX hY
    have x0 : 0 ≤ x := (norm_nonneg _).trans hX
    refine (norm_mul_le _ _).trans (mul_le_mul ((norm_mul_le _ _).trans (mul_le_mul ?_ hA (norm_nonneg _) x0)) hY
      (norm_nonneg _) (by positivity))
    rwa [norm_transpose']
  have t2 := p E (V * Q) _ _ he hVQ
  have t3 := p (V * Q) E _ _ hVQ he
  have t4 := p E E _ _ he (he.trans he1)
  have := norm_sub_le ((B' - Q.transpose * B * Q) + Q.transpose * (B - V.transpose * A * V) * Q)
    ((E.transpose * A * (V * Q) + (V * Q).transpose * A * E) + E.transpose * A * E)
  have := norm_add_le (B' - Q.transpose * B * Q) (Q.transpose * (B - V.transpose * A * V) * Q)
  have := norm_add_le (E.transpose * A * (V * Q) + (V * Q).transpose * A * E) (E.transpose * A * E)
  have := norm_add_le (E.transpose * A * (V * Q)) ((V * Q).transpose * A * E)
  have := mul_nonneg e0 M0
  linarith

/-- How far the iterate is stretched at most and at least, after `j` steps. -/
theorem iter_bounds {j k K r σ M : ℝ} (hn : 0 < n) (hj : 0 ≤ j) (hK : K = k + 100 / 2 ^ 24) (hjK : j * K ≤ 1 / 200)
    (hr : 224 / 2 ^ 24 * r ≤ k) (hM : 103 / 100 * M ≤ r * σ) (hσ : 0 < σ) (hσM : σ ≤ M) (hA : ‖A‖ ≤ M)
    (hAl : ∀ x : Fin n → ℝ, σ * vlen x ≤ vlen (A *ᵥ x))
    (hV : ‖V.transpose * V - 1‖ ≤ 101 / 100 * j * K) (hB : ‖B - V.transpose * A * V‖ ≤ 200 * j / 2 ^ 24 * M) :
    101 / 100 * j * K ≤ 1 / 100 ∧ 200 * j / 2 ^ 24 * M ≤ 44 / 10000 * σ ∧ ‖B‖ ≤ 101 / 100 * M ∧
      ∀ x : Fin n → ℝ, 99 / 100 * σ * vlen x ≤ vlen (B *ᵥ x) := by
  have hb : 200 * j / 2 ^ 24 * M ≤ 44 / 10000 * σ := by
    have h1 : j * (224 / 2 ^ 24 * r) ≤ 1 / 200 := by
      refine le_trans (mul_le_mul_of_nonneg_left ?_ hj) hjK
      rw [hK]
      norm_num at hr ⊢
      linarith
    have h2 := mul_le_mul_of_nonneg_right h1 hσ.le
    have h3 := mul_le_mul_of_nonneg_left hM (show 0 ≤ j * (224 / 2 ^ 24) by positivity)
    norm_num at h1 h2 h3 ⊢
    linarith
  have hc : 101 / 100 * j * K ≤ 505 / 100000 := by linarith
  refine ⟨hc.trans (by norm_num), hb, ?_, fun x => ?_⟩
  · have h1 := iter_norm hn hV hB hA
    have h2 := mul_le_mul_of_nonneg_right hc (hσ.le.trans hσM)
    linarith
  · have h1 := iter_low hV (by linarith) hB hσ.le hAl x
    refine le_trans (mul_le_mul_of_nonneg_right ?_ (vlen_nonneg x)) h1
    have h2 := mul_le_mul_of_nonneg_right hc hσ.le
    linarith

/-- One step of the iteration with rounding errors. -/
theorem iter_step {j k K r σ M : ℝ} (hn : 0 < n) (hj : 0 ≤ j) (hK : K = k + 100 / 2 ^ 24) (hjK : (j + 1) * K ≤ 1 / 200)
    (hr : 224 / 2 ^ 24 * r ≤ k) (hM : 103 / 100 * M ≤ r * σ) (hσ : 12 / 10 ^ 5 ≤ σ) (hσM : σ ≤ M) (hA : ‖A‖ ≤ M)
    (hAl : ∀ x : Fin n → ℝ, σ * vlen x ≤ vlen (A *ᵥ x))
    (hV : ‖V.transpose * V - 1‖ ≤ 101 / 100 * j * K) (hB : ‖B - V.transpose * A * V‖ ≤ 200 * j / 2 ^ 24 * M)
    (hQ : ‖Q.transpose * Q - 1‖ ≤ k) (hR : ‖R - Q.transpose * B‖ ≤ 48 * (1 / 2 ^ 24) * (‖Q.transpose‖ * ‖B‖) + 4 * (12 / 2 ^ 150))
    (hB' : ‖B' - R * Q‖ ≤ 48 * (1 / 2 ^ 24) * (‖R‖ * ‖Q‖) + 4 * (12 / 2 ^ 150))
    (hV' : ‖V' - V * Q‖ ≤ 48 * (1 / 2 ^ 24) * (‖V‖ * ‖Q‖) + 4 * (12 / 2 ^ 150)) :
    ‖V'.transpose * V' - 1‖ ≤ 101 / 100 * (j + 1) * K ∧ ‖B' - V'.transpose * A * V'‖ ≤ 200 * (j + 1) / 2 ^ 24 * M := by
  have hσ0 : 0 < σ := lt_of_lt_of_le (by norm_num) hσ
  have hM0 : 0 < M := hσ0.trans_le hσM
  have hk0 : 0 ≤ k := (norm_nonneg _).trans hQ
  have hK0 : 0 ≤ K := by rw [hK]; positivity
  have hjK' : j * K ≤ 1 / 200 := by linarith
  have hk1 : k ≤ 1 / 200 := by
    have : K ≤ 1 / 200 := by nlinarith
    rw [hK] at this
    norm_num at this ⊢
    linarith
  obtain ⟨hc, hb, hBn, -⟩ := iter_bounds hn hj hK hjK' hr hM hσ0 hσM hA hAl hV hB
  have q2 := norm_ortho hQ hn
  have v2 := norm_ortho hV hn
  have q1 : ‖Q‖ ≤ 1003 / 1000 := le_of_sq_le_sq (q2.trans (by norm_num; linarith)) (by norm_num)
  have v1 : ‖V‖ ≤ 1003 / 1000 := le_of_sq_le_sq (v2.trans (by norm_num; linarith)) (by norm_num)
  have he : ‖V' - V * Q‖ ≤ 483 / 10 / 2 ^ 24 := by
    have : ‖V‖ * ‖Q‖ ≤ 1003 / 1000 * (1003 / 1000) := mul_le_mul v1 q1 (norm_nonneg _) (by norm_num)
    norm_num at hV' this ⊢
    linarith
  have h1 := iter_ortho hn hV hQ hc (by linarith) he (by norm_num)
  have hd : ‖B' - Q.transpose * B * Q‖ ≤ 98 / 2 ^ 24 * M := by
    have e1 : B' - Q.transpose * B * Q = (B' - R * Q) + (R - Q.transpose * B) * Q := by noncomm_ring
    have hQB : ‖Q.transpose‖ * ‖B‖ ≤ 1003 / 1000 * (101 / 100 * M) := by
      rw [norm_transpose']
      exact mul_le_mul q1 hBn (norm_nonneg _) (by norm_num)
    have hE : ‖R - Q.transpose * B‖ ≤ 487 / 10 / 2 ^ 24 * M := by
      norm_num at hR hQB hσ ⊢
      linarith
    have hRn : ‖R‖ ≤ 10131 / 10000 * M := by
      have := norm_add_le (R - Q.transpose * B) (Q.transpose * B)
      rw [sub_add_cancel] at this
      have := norm_mul_le Q.transpose B
      norm_num at hE hQB ⊢
      linarith
    have hRQ : ‖R‖ * ‖Q‖ ≤ 10131 / 10000 * M * (1003 / 1000) := mul_le_mul hRn q1 (norm_nonneg _) (by positivity)
    have hEQ : ‖(R - Q.transpose * B) * Q‖ ≤ 487 / 10 / 2 ^ 24 * M * (1003 / 1000) :=
      (norm_mul_le _ _).trans (mul_le_mul hE q1 (norm_nonneg _) (by positivity))
    rw [e1]
    have := norm_add_le (B' - R * Q) ((R - Q.transpose * B) * Q)
    norm_num at hB' hRQ hEQ hσ ⊢
    linarith
  have h2 := iter_similar hn hV hQ hc (by linarith) hA hB he (by norm_num) hd
  constructor
  · refine h1.trans ?_
    have h3 : k * (101 / 100 * j * K) ≤ k * (1 / 100) := mul_le_mul_of_nonneg_left hc hk0
    have h4 : k ≤ K - 100 / 2 ^ 24 := by rw [hK]; linarith
    norm_num at h4 ⊢
    linarith
  · refine h2.trans ?_
    have h3 : j * k ≤ 1 / 200 := le_trans (mul_le_mul_of_nonneg_left (by rw [hK]; norm_num) hj) hjK'
    have h4 := mul_le_mul_of_nonneg_right h3 hM0.le
    norm_num at h4 ⊢
    linarith

theorem trace_le (X : Matrix (Fin n) (Fin n) ℝ) (hn : n ≤ 4) : |X.trace| ≤ 4 * ‖X‖ := by
  unfold Matrix.trace
  refine (Finset.abs_sum_le_sum_abs _ _).trans ((Finset.sum_le_sum fun i _ => entry_le X i i).trans ?_)
  rw [Finset.sum_const, Finset.card_univ, Fintype.card_fin, nsmul_eq_mul]
  exact mul_le_mul_of_nonneg_right (by exact_mod_cast hn) (norm_nonneg _)

/-- Nearly orthogonal from one side is nearly orthogonal from the other. -/
theorem ortho_other {c : ℝ} (hn : 0 < n) (h : ‖V.transpose * V - 1‖ ≤ c) (hc : c ≤ 1 / 100) :
    ‖V * V.transpose - 1‖ ≤ 102 / 100 * c := by
  have c0 : 0 ≤ c := (norm_nonneg _).trans h
  have hinj : Function.Injective V.mulVecLin := by
    rw [injective_iff_map_eq_zero]
    intro x hx
    have h1 := ortho_low h x
    rw [show V *ᵥ x = 0 from hx] at h1
    have h0 : vlen (0 : Fin n → ℝ) = 0 := by simp [vlen]
    rw [h0] at h1
    have h3 : vlen x = 0 := by nlinarith [sq_nonneg (vlen x)]
    have h4 : (WithLp.toLp 2 x : EuclideanSpace ℝ (Fin n)) = 0 := norm_eq_zero.mp h3
    simpa using h4
  refine opNorm_le (by positivity) fun y => ?_
  obtain ⟨x, rfl⟩ := LinearMap.injective_iff_surjective.mp hinj y
  show vlen ((V * V.transpose - 1) *ᵥ (V *ᵥ x)) ≤ 102 / 100 * c * vlen (V *ᵥ x)
  have e : (V * V.transpose - 1) *ᵥ (V *ᵥ x) = V *ᵥ ((V.transpose * V - 1) *ᵥ x) := by
    rw [Matrix.mulVec_mulVec, Matrix.mulVec_mulVec]
    congr 1
    noncomm_ring
  rw [e]
  have h1 := ortho_low h x
  have h2 := norm_ortho h hn
  have v1 : ‖V‖ ≤ 1005 / 1000 := le_of_sq_le_sq (h2.trans (by norm_num; linarith)) (by norm_num)
  have h3 : 994 / 1000 * vlen x ≤ vlen (V *ᵥ x) := by
    refine le_of_sq_le_sq (le_trans ?_ h1) (vlen_nonneg _)
    nlinarith [sq_nonneg (vlen x)]
  have h4 : vlen ((V.transpose * V - 1) *ᵥ x) ≤ c * vlen x :=
    (vlen_mulVec_le _ x).trans (mul_le_mul_of_nonneg_right h (vlen_nonneg x))
  have h5 : vlen (V *ᵥ ((V.transpose * V - 1) *ᵥ x)) ≤ 1005 / 1000 * (c * vlen x) :=
    (vlen_mulVec_le _ _).trans (mul_le_mul v1 h4 (vlen_nonneg _) (by norm_num))
  have h6 := mul_le_mul_of_nonneg_left h3 c0
  have h7 := mul_nonneg c0 (vlen_nonneg (V *ᵥ x))
  linarith

/-- A nearly orthogonal change of basis nearly keeps the trace. -/
theorem trace_near {c M : ℝ} (h : ‖V.transpose * V - 1‖ ≤ c) (hc : c ≤ 1 / 100) (hA : ‖A‖ ≤ M) (hn : 0 < n) (hn4 : n ≤ 4) :
    |(V.transpose * A * V).trace - A.trace| ≤ 408 / 100 * c * M := by
  have c0 : 0 ≤ c := (norm_nonneg _).trans h
  have e : (V.transpose * A * V).trace - A.trace = ((V * V.transpose - 1) * A).trace := by
    rw [Matrix.mul_assoc, Matrix.trace_mul_comm, sub_mul, Matrix.trace_sub, Matrix.one_mul, Matrix.mul_assoc,
      Matrix.trace_mul_comm, Matrix.mul_assoc]
  rw [e]
  refine (trace_le _ hn4).trans ?_
  have h1 := (norm_mul_le (V * V.transpose - 1) A).trans
    (mul_le_mul (ortho_other hn h hc) hA (norm_nonneg _) (by positivity))
  linarith

end
end Verif
