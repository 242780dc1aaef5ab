import Verif.Props.Eigen

/-
The step `A = Q R`, `A' = R Q` for a symmetric positive matrix: the sums of the first `k` diagonal elements do not
decrease, and they grow by at least the squares of the elements of `A'` outside the diagonal blocks (C97).
-/

namespace Verif
open Finset Matrix

section
variable {n : Nat} {A B Q R : Matrix (Fin n) (Fin n) ℝ} {L l : ℝ}

/-- A symmetric matrix whose quadratic form is between `l` and `L` on the unit sphere. -/
structure Between (A : Matrix (Fin n) (Fin n) ℝ) (l L : ℝ) : Prop where
  symm : Aᵀ = A
  low : ∀ x, l * (x ⬝ᵥ x) ≤ x ⬝ᵥ (A *ᵥ x)
  high : ∀ x, x ⬝ᵥ (A *ᵥ x) ≤ L * (x ⬝ᵥ x)

theorem Between.comm (h : Between A l L) (x y : Fin n → ℝ) : x ⬝ᵥ (A *ᵥ y) = y ⬝ᵥ (A *ᵥ x) := by
  rw [dotProduct_mulVec, ← mulVec_transpose, h.symm, dotProduct_comm]

theorem dot_self_nonneg (x : Fin n → ℝ) : 0 ≤ x ⬝ᵥ x := Finset.sum_nonneg fun i _ => mul_self_nonneg (x i)

/-- `A² ≤ L A`. -/
theorem Between.sq_le (h : Between A l L) (hl : 0 ≤ l) (hL : 0 < L) (x : Fin n → ℝ) :
    (A *ᵥ x) ⬝ᵥ (A *ᵥ x) ≤ L * (x ⬝ᵥ (A *ᵥ x)) := by
  set y := A *ᵥ x with hy
  have h1 : 0 ≤ (x - L⁻¹ • y) ⬝ᵥ (A *ᵥ (x - L⁻¹ • y)) :=
    le_trans (mul_nonneg hl (dot_self_nonneg _)) (h.low _)
  have h2 := h.high y
  have e : (x - L⁻¹ • y) ⬝ᵥ (A *ᵥ (x - L⁻¹ • y)) =
      x ⬝ᵥ y - 2 * L⁻¹ * (y ⬝ᵥ y) + L⁻¹ * (L⁻¹ * (y ⬝ᵥ (A *ᵥ y))) := by
    rw [mulVec_sub, mulVec_smul, sub_dotProduct, dotProduct_sub, dotProduct_sub, ← hy, smul_dotProduct,
      smul_dotProduct, dotProduct_smul, dotProduct_smul]
    simp only [smul_eq_mul]
    rw [show x ⬝ᵥ (A *ᵥ y) = y ⬝ᵥ y from h.comm x y]
    ring
  rw [e] at h1
  have h3 : L⁻¹ * (L⁻¹ * (y ⬝ᵥ (A *ᵥ y))) ≤ L⁻¹ * (y ⬝ᵥ y) := by
    refine mul_le_mul_of_nonneg_left ?_ (inv_nonneg.mpr hL.le)
    rw [inv_mul_le_iff₀ hL]
    exact h2
  have h4 : L⁻¹ * (y ⬝ᵥ y) ≤ x ⬝ᵥ y := by linarith
  rwa [inv_mul_le_iff₀ hL] at h4

theorem Between.similar (h : Between A l L) {V : Matrix (Fin n) (Fin n) ℝ} (hV : Vᵀ * V = 1) :
    Between (Vᵀ * A * V) l L := by
  have e : ∀ x : Fin n → ℝ, x ⬝ᵥ ((Vᵀ * A * V) *ᵥ x) = (V *ᵥ x) ⬝ᵥ (A *ᵥ (V *ᵥ x)) := fun x => by
    rw [← mulVec_mulVec, ← mulVec_mulVec, dotProduct_mulVec, vecMul_transpose]
  have e' : ∀ x : Fin n → ℝ, (V *ᵥ x) ⬝ᵥ (V *ᵥ x) = x ⬝ᵥ x := fun x => by
    rw [dotProduct_mulVec, ← vecMul_transpose, vecMul_vecMul, hV, vecMul_one]
  refine ⟨?_, fun x => ?_, fun x => ?_⟩
  · rw [transpose_mul, transpose_mul, transpose_transpose, h.symm, Matrix.mul_assoc]
  · rw [e, ← e']; exact h.low _
  · rw [e, ← e' x]; exact h.high _

theorem Between.diag (h : Between A l L) (i : Fin n) : l ≤ A i i ∧ A i i ≤ L := by
  have h1 := h.low (Pi.single i 1)
  have h2 := h.high (Pi.single i 1)
  simpa using And.intro h1 h2

/-- The squares below and left of the corner `k`. -/
noncomputable def corner (B : Matrix (Fin n) (Fin n) ℝ) (k : Nat) : ℝ :=
  ∑ i : Fin n, ∑ j : Fin n, if j.1 < k ∧ k ≤ i.1 then B i j ^ 2 else 0

/-- The sum of the first `k` diagonal elements. -/
noncomputable def head (B : Matrix (Fin n) (Fin n) ℝ) (k : Nat) : ℝ := ∑ i : Fin n, if i.1 < k then B i i else 0

theorem ascent (hQ : Qᵀ * Q = 1) (hA : Q * R = A) (hB : R * Q = B) (hR : ∀ i j : Fin n, j < i → R i j = 0)
    (h : Between B l L) (hl : 0 ≤ l) (hL : 0 < L) (k : Nat) :
    corner B k ≤ L * (head B k - head A k) := by
  have hQ' := mul_eq_one_comm.mp hQ
  -- the rows of `Q`, cut to the first coordinates
  let u : Fin n → Fin n → ℝ := fun j => Q j
  let p : Fin n → Fin n → ℝ := fun j i => if i.1 < k then Q j i else 0
  let c : Fin n → Fin n → ℝ := fun j i => if i.1 < k then 0 else Q j i
  let cut : (Fin n → ℝ) → Fin n → ℝ := fun x i => if i.1 < k then 0 else x i
  have hu : ∀ j, u j = p j + c j := fun j => by
    funext i
    simp only [u, p, c, Pi.add_apply]
    split <;> simp
  have hcut : ∀ x : Fin n → ℝ, cut x ⬝ᵥ cut x ≤ x ⬝ᵥ x := fun x => by
    refine Finset.sum_le_sum fun i _ => ?_
    simp only [cut]
    split
    · simpa using mul_self_nonneg (x i)
    · exact le_refl _
  have hrow : ∀ j, B *ᵥ u j = fun i => R i j := fun j => by
    funext i
    have : (R * Q * Qᵀ) i j = R i j := by rw [Matrix.mul_assoc, hQ', Matrix.mul_one]
    rw [hB] at this
    rw [← this]
    rfl
  have hAjj : ∀ j, A j j = u j ⬝ᵥ (B *ᵥ u j) := fun j => by
    rw [hrow, ← hA]
    rfl
  -- each row
  have key : ∀ j, cut (B *ᵥ p j) ⬝ᵥ cut (B *ᵥ p j) ≤
      L * (p j ⬝ᵥ (B *ᵥ p j) - if j.1 < k then A j j else 0) := by
    intro j
    split
    · rename_i hj
      have hz : cut (B *ᵥ u j) = 0 := by
        rw [hrow]
        funext i
        simp only [cut, Pi.zero_apply]
        split
        · rfl
        · exact hR i j (Fin.lt_def.mpr (by omega))
      have hcp : cut (B *ᵥ p j) = - cut (B *ᵥ c j) := by
        have : cut (B *ᵥ u j) = cut (B *ᵥ p j) + cut (B *ᵥ c j) := by
          rw [hu, mulVec_add]
          funext i
          simp only [cut, Pi.add_apply]
          split <;> simp
        rw [hz] at this
        exact eq_neg_of_add_eq_zero_left this.symm
      have hc : ∀ x : Fin n → ℝ, c j ⬝ᵥ x = c j ⬝ᵥ cut x := fun x => by
        refine Finset.sum_congr rfl fun i _ => ?_
        simp only [c, cut]
        split <;> simp
      have e : p j ⬝ᵥ (B *ᵥ p j) - A j j = c j ⬝ᵥ (B *ᵥ c j) := by
        have h1 : c j ⬝ᵥ (B *ᵥ p j) = - (c j ⬝ᵥ (B *ᵥ c j)) := by
          rw [hc, hcp, dotProduct_neg, ← hc]
        rw [hAjj, hu, mulVec_add, add_dotProduct, dotProduct_add, dotProduct_add, h.comm (p j) (c j), h1]
        ring
      rw [e, hcp, neg_dotProduct_neg]
      exact (hcut _).trans (h.sq_le hl hL _)
    · rw [sub_zero]
      exact (hcut _).trans (h.sq_le hl hL _)
  have hsum := Finset.sum_le_sum fun j (_ : j ∈ univ) => key j
  rw [← Finset.mul_sum, Finset.sum_sub_distrib] at hsum
  -- the sums over all rows
  have orth : ∀ a b : Fin n, ∑ j, Q j a * Q j b = if a = b then 1 else 0 := fun a b => by
    have := congrFun (congrFun hQ a) b
    rw [Matrix.mul_apply] at this
    simpa [Matrix.one_apply] using this
  have gen : ∀ C : Matrix (Fin n) (Fin n) ℝ, ∑ j, p j ⬝ᵥ (C *ᵥ p j) = head C k := by
    intro C
    have e : ∀ j, p j ⬝ᵥ (C *ᵥ p j) = ∑ a, ∑ b, (if a.1 < k ∧ b.1 < k then C a b else 0) * (Q j a * Q j b) := by
      intro j
      simp only [dotProduct, mulVec, Finset.mul_sum, p]
      refine Finset.sum_congr rfl fun a _ => Finset.sum_congr rfl fun b _ => ?_
      by_cases ha : a.1 < k <;> by_cases hb : b.1 < k <;> simp [ha, hb]
      ring
    simp only [e]
    rw [Finset.sum_comm]
    unfold head
    refine Finset.sum_congr rfl fun a _ => ?_
    rw [Finset.sum_comm]
    simp only [← Finset.mul_sum, orth]
    simp
  have e2 : ∑ j, cut (B *ᵥ p j) ⬝ᵥ cut (B *ᵥ p j) = corner B k := by
    let C : Matrix (Fin n) (Fin n) ℝ := fun a b => ∑ i : Fin n, if i.1 < k then 0 else B i a * B i b
    have e : ∀ j, cut (B *ᵥ p j) ⬝ᵥ cut (B *ᵥ p j) = p j ⬝ᵥ (C *ᵥ p j) := by
      intro j
      have e3 : ∀ i, cut (B *ᵥ p j) i * cut (B *ᵥ p j) i =
          ∑ a, ∑ b, p j a * ((if i.1 < k then 0 else B i a * B i b) * p j b) := by
        intro i
        simp only [cut, mulVec, dotProduct]
        split
        · simp
        · rw [Finset.sum_mul_sum]
          exact Finset.sum_congr rfl fun a _ => Finset.sum_congr rfl fun b _ => by ring
      simp only [dotProduct, mulVec, C, Finset.sum_mul, Finset.mul_sum] at e3 ⊢
      simp only [e3]
      rw [Finset.sum_comm]
      exact Finset.sum_congr rfl fun a _ => Finset.sum_comm
    simp only [e]
    rw [gen]
    unfold head corner
    rw [Finset.sum_comm]
    refine Finset.sum_congr rfl fun a _ => ?_
    by_cases ha : a.1 < k
    · simp only [ha, if_true, true_and, C]
      refine Finset.sum_congr rfl fun i _ => ?_
      by_cases hi : i.1 < k
      · rw [if_pos hi, if_neg (by omega)]
      · rw [if_neg hi, if_pos (by omega), sq]
    · simp [ha]
  rw [e2, gen] at hsum
  exact hsum

end
end Verif
