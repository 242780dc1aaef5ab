import Mathlib.Algebra.Order.Chebyshev
import Mathlib.Analysis.Matrix.Spectrum
import Verif.Props.QrAscent
import Verif.Props.RoundedLup

/-
C97: `eigen` without shift on a symmetric positive definite matrix: how many iterations it needs, and how near its results
are to eigenvalues and eigenvectors.  The sum over `k` of the sums of the first `k` diagonal elements never decreases and
is bounded by `n - 1` times the trace; an iteration after which the loop goes on increases it by more than a fixed amount.
-/

namespace Verif
open Finset Matrix

section
variable {n : Nat} {A B Q R : Matrix (Fin n) (Fin n) ℝ} {L l η : ℝ}

theorem corner_nonneg (B : Matrix (Fin n) (Fin n) ℝ) (k : Nat) : 0 ≤ corner B k :=
  Finset.sum_nonneg fun i _ => Finset.sum_nonneg fun j _ => by split <;> positivity

theorem head_zero (B : Matrix (Fin n) (Fin n) ℝ) : head B 0 = 0 := by simp [head]

theorem head_all (B : Matrix (Fin n) (Fin n) ℝ) : head B n = B.trace := by simp [head, Matrix.trace]

theorem head_succ (B : Matrix (Fin n) (Fin n) ℝ) (k : Fin n) : head B (k + 1) = head B k + B k k := by
  have e : B k k = ∑ i : Fin n, if i = k then B i i else 0 := by simp
  unfold head
  rw [e, ← Finset.sum_add_distrib]
  refine Finset.sum_congr rfl fun i _ => ?_
  by_cases hi : i = k
  · simp [hi]
  · have : i.1 ≠ k.1 := fun h => hi (Fin.ext h)
    have h2 : i.1 < k + 1 ↔ i.1 < k := by omega
    simp [hi, h2]

theorem head_le (B : Matrix (Fin n) (Fin n) ℝ) (hB : ∀ i, 0 ≤ B i i) (k : Nat) : 0 ≤ head B k ∧ head B k ≤ B.trace := by
  constructor
  · exact Finset.sum_nonneg fun i _ => by split <;> [exact hB i; exact le_refl _]
  · exact Finset.sum_le_sum fun i _ => by split <;> [exact le_refl _; exact hB i]

/-- Increments of a sequence of non-negative numbers that starts and ends at zero. -/
theorem increments (n : Nat) (D : Nat → ℝ) (h0 : D 0 = 0) (hn : D n = 0) (hD : ∀ k, 0 ≤ D k) :
    ∑ i ∈ range n, (D (i + 1) - D i) ^ 2 ≤ 2 * (∑ k ∈ range n, D k) ^ 2 := by
  have h1 : ∑ i ∈ range n, (D (i + 1) - D i) ^ 2 ≤ ∑ i ∈ range n, (D (i + 1) ^ 2 + D i ^ 2) :=
    Finset.sum_le_sum fun i _ => by nlinarith [mul_nonneg (hD (i + 1)) (hD i)]
  have h2 : ∑ i ∈ range n, D (i + 1) ^ 2 = ∑ i ∈ range n, D i ^ 2 := by
    have a := Finset.sum_range_succ (fun i => D i ^ 2) n
    have b := Finset.sum_range_succ' (fun i => D i ^ 2) n
    rw [hn] at a
    rw [h0] at b
    linarith
  have h3 : ∑ k ∈ range n, D k ^ 2 ≤ (∑ k ∈ range n, D k) ^ 2 :=
    Finset.sum_sq_le_sq_sum_of_nonneg fun k _ => hD k
  rw [Finset.sum_add_distrib, h2] at h1
  linarith

/-- The quantity that grows. -/
noncomputable def rise (B : Matrix (Fin n) (Fin n) ℝ) : ℝ := ∑ k ∈ range n, head B k

theorem rise_bound (hB : ∀ i, 0 ≤ B i i) : 0 ≤ rise B ∧ rise B ≤ (n - 1 : ℕ) * B.trace := by
  constructor
  · exact Finset.sum_nonneg fun k _ => (head_le B hB k).1
  · rcases n with _ | m
    · simp [rise]
    · unfold rise
      rw [Finset.sum_range_succ', head_zero, add_zero]
      refine (Finset.sum_le_sum fun k _ => (head_le B hB (k + 1)).2).trans ?_
      simp

/-- How far the diagonal moves in one step. -/
noncomputable def move (A B : Matrix (Fin n) (Fin n) ℝ) : ℝ := √(∑ i, (B i i - A i i) ^ 2)

theorem move_le (hQ : Qᵀ * Q = 1) (hA : Q * R = A) (hB : R * Q = B) (hR : ∀ i j : Fin n, j < i → R i j = 0)
    (h : Between B l L) (hl : 0 ≤ l) (hL : 0 < L) : move A B ≤ √2 * (rise B - rise A) := by
  have hD : ∀ k, 0 ≤ head B k - head A k := fun k => by
    have := (corner_nonneg B k).trans (ascent hQ hA hB hR h hl hL k)
    exact nonneg_of_mul_nonneg_right this hL
  have ht : B.trace = A.trace := by rw [← hA, ← hB, Matrix.trace_mul_comm]
  have := increments n (fun k => head B k - head A k) (by rw [head_zero, head_zero, sub_zero])
    (by rw [head_all, head_all, ht, sub_self]) hD
  rw [Finset.sum_range] at this
  have e : ∀ i : Fin n, (head B (i + 1) - head A (i + 1) - (head B i - head A i)) ^ 2 = (B i i - A i i) ^ 2 := fun i => by
    rw [head_succ, head_succ]; ring
  simp only [e] at this
  rw [Finset.sum_sub_distrib] at this
  have h0 : 0 ≤ rise B - rise A := by
    unfold rise
    rw [← Finset.sum_sub_distrib]
    exact Finset.sum_nonneg fun k _ => hD k
  unfold move
  calc √(∑ i, (B i i - A i i) ^ 2) ≤ √(2 * (rise B - rise A) ^ 2) := Real.sqrt_le_sqrt this
    _ = √2 * (rise B - rise A) := by rw [Real.sqrt_mul (by norm_num), Real.sqrt_sq h0]

/-- The partial sums move no further than the diagonal. -/
theorem head_move (hn : n ≤ 4) (ht : B.trace = A.trace) (k : Nat) : head B k - head A k ≤ move A B := by
  let d : Fin n → ℝ := fun i => B i i - A i i
  have e1 : head B k - head A k = ∑ i : Fin n, if i.1 < k then d i else 0 := by
    unfold head
    rw [← Finset.sum_sub_distrib]
    exact Finset.sum_congr rfl fun i _ => by split <;> simp [d]
  have e2 : ∑ i, d i = 0 := by
    simp only [d, Finset.sum_sub_distrib]
    exact sub_eq_zero.mpr ht
  have e3 : 2 * (head B k - head A k) ≤ ∑ i, |d i| := by
    have : 2 * (head B k - head A k) = ∑ i : Fin n, ((if i.1 < k then d i else 0) * 2 - d i) := by
      rw [Finset.sum_sub_distrib, e2, ← Finset.sum_mul, e1]; ring
    rw [this]
    refine Finset.sum_le_sum fun i _ => ?_
    split
    · linarith [le_abs_self (d i)]
    · linarith [neg_abs_le (d i)]
  have e4 : (∑ i, |d i|) ^ 2 ≤ 4 * ∑ i, d i ^ 2 := by
    have := sq_sum_le_card_mul_sum_sq (s := (univ : Finset (Fin n))) (f := fun i => |d i|)
    simp only [sq_abs, Finset.card_univ, Fintype.card_fin] at this
    refine this.trans (mul_le_mul_of_nonneg_right ?_ (Finset.sum_nonneg fun i _ => sq_nonneg _))
    exact_mod_cast hn
  unfold move
  by_cases h0 : head B k - head A k ≤ 0
  · exact h0.trans (Real.sqrt_nonneg _)
  · refine Real.le_sqrt_of_sq_le ?_
    have : (2 * (head B k - head A k)) ^ 2 ≤ (∑ i, |d i|) ^ 2 := pow_le_pow_left₀ (by linarith) e3 2
    nlinarith


theorem corner_zero (B : Matrix (Fin n) (Fin n) ℝ) : corner B 0 = 0 := by simp [corner]

theorem corner_all (B : Matrix (Fin n) (Fin n) ℝ) : corner B n = 0 := by
  unfold corner
  refine Finset.sum_eq_zero fun i _ => Finset.sum_eq_zero fun j _ => if_neg ?_
  have := i.2
  omega

/-- The elements of a column outside the diagonal are in two corners. -/
theorem column_le (hB : Bᵀ = B) (i : Fin n) : ∑ r, (if r = i then 0 else B r i ^ 2) ≤ corner B i + corner B (i + 1) := by
  have h1 : ∑ r : Fin n, (if i.1 + 1 ≤ r.1 then B r i ^ 2 else 0) ≤ corner B (i + 1) := by
    unfold corner
    refine Finset.sum_le_sum fun r _ => ?_
    refine le_trans (le_of_eq ?_) (Finset.single_le_sum (fun j _ => by split <;> positivity) (mem_univ i))
    simp
  have h2 : ∑ r : Fin n, (if r.1 < i.1 then B r i ^ 2 else 0) ≤ corner B i := by
    unfold corner
    refine le_trans ?_ (Finset.single_le_sum (fun r _ => Finset.sum_nonneg fun j _ => by split <;> positivity) (mem_univ i))
    refine Finset.sum_le_sum fun r _ => le_of_eq ?_
    have e : B r i = B i r := congrFun (congrFun hB i) r
    simp [e]
  refine le_trans (le_of_eq ?_) (add_le_add h2 h1)
  rw [← Finset.sum_add_distrib]
  refine Finset.sum_congr rfl fun r _ => ?_
  rcases lt_trichotomy r i with h | h | h
  · have := Fin.lt_def.mp h
    rw [if_neg h.ne, if_pos this, if_neg (by omega), add_zero]
  · subst h
    simp
  · have := Fin.lt_def.mp h
    rw [if_neg h.ne', if_neg (by omega), if_pos (by omega), zero_add]

/-- Every corner is small. -/
def Settled (B : Matrix (Fin n) (Fin n) ℝ) (η : ℝ) : Prop := ∀ k, corner B k ≤ η

theorem Settled.column (h : Settled B η) (hB : Bᵀ = B) (i : Fin n) : ∑ r, (if r = i then 0 else B r i ^ 2) ≤ 2 * η := by
  have := column_le hB i
  linarith [h i, h (i + 1)]

theorem Settled.off (h : Settled B η) (hB : Bᵀ = B) (hn : n ≤ 4) (hη : 0 ≤ η) :
    ∑ i, ∑ r, (if r = i then 0 else B r i ^ 2) ≤ 6 * η := by
  have h1 := Finset.sum_le_sum fun i (_ : i ∈ (univ : Finset (Fin n))) => column_le hB i
  refine h1.trans ?_
  rw [Finset.sum_add_distrib, ← Finset.sum_range (fun k => corner B k), ← Finset.sum_range (fun k => corner B (k + 1))]
  have e : ∑ k ∈ range n, corner B (k + 1) = ∑ k ∈ range n, corner B k := by
    have a := Finset.sum_range_succ (corner B) n
    have b := Finset.sum_range_succ' (corner B) n
    rw [corner_all] at a
    rw [corner_zero] at b
    linarith
  rw [e]
  have : ∑ k ∈ range n, corner B k ≤ 3 * η := by
    rcases n with _ | m
    · simp; linarith
    · rw [Finset.sum_range_succ', corner_zero, add_zero]
      refine (Finset.sum_le_sum fun k _ => h (k + 1)).trans ?_
      rw [Finset.sum_const, card_range, nsmul_eq_mul]
      refine mul_le_mul_of_nonneg_right ?_ hη
      have : (m : ℝ) + 1 ≤ 4 := by exact_mod_cast hn
      linarith
  linarith

/-- The columns of `V` are nearly eigenvectors. -/
theorem Settled.residual {V : Matrix (Fin n) (Fin n) ℝ} (hV : Vᵀ * V = 1) (hB : B = Vᵀ * A * V) (hs : Bᵀ = B)
    (h : Settled B η) (i : Fin n) : ∑ r, ((A * V) r i - B i i * V r i) ^ 2 ≤ 2 * η := by
  have hV' := mul_eq_one_comm.mp hV
  have e : A * V = V * B := by rw [hB, ← Matrix.mul_assoc, ← Matrix.mul_assoc, hV', Matrix.one_mul]
  let x : Fin n → ℝ := fun r => if r = i then 0 else B r i
  have e1 : ∀ r, (A * V) r i - B i i * V r i = (V *ᵥ x) r := fun r => by
    rw [e, Matrix.mul_apply, mulVec, dotProduct, ← Finset.sum_erase_add _ _ (mem_univ i),
      ← Finset.sum_erase_add _ _ (mem_univ i)]
    have : ∑ j ∈ univ.erase i, V r j * x j = ∑ j ∈ univ.erase i, V r j * B j i :=
      Finset.sum_congr rfl fun j hj => by simp [x, Finset.ne_of_mem_erase hj]
    rw [this]
    simp [x]
    ring
  have e2 : ∑ r, (V *ᵥ x) r ^ 2 = ∑ r, x r ^ 2 := by
    have : (V *ᵥ x) ⬝ᵥ (V *ᵥ x) = x ⬝ᵥ x := by
      rw [dotProduct_mulVec, ← vecMul_transpose, vecMul_vecMul, hV, vecMul_one]
    simpa [dotProduct, sq] using this
  simp only [e1]
  rw [e2]
  refine le_trans (le_of_eq (Finset.sum_congr rfl fun r _ => ?_)) (h.column hs i)
  simp only [x]
  split <;> simp

/-- Every eigenvalue is near a diagonal element. -/
theorem Settled.eigenvalue {V : Matrix (Fin n) (Fin n) ℝ} (hV : Vᵀ * V = 1) (hB : B = Vᵀ * A * V) (hs : Bᵀ = B)
    (hn : n ≤ 4) (hη : 0 ≤ η) (h : Settled B η) {y : Fin n → ℝ} {μ : ℝ} (hy : y ≠ 0) (he : A *ᵥ y = μ • y) :
    ∃ i, (B i i - μ) ^ 2 ≤ 6 * η := by
  have hV' := mul_eq_one_comm.mp hV
  set z := Vᵀ *ᵥ y with hz
  have hyz : V *ᵥ z = y := by rw [hz, mulVec_mulVec, hV', one_mulVec]
  have hz0 : z ≠ 0 := fun h => hy (by rw [← hyz, h, mulVec_zero])
  have hBz : B *ᵥ z = μ • z := by
    rw [hB, ← mulVec_mulVec, ← mulVec_mulVec, hyz, he, mulVec_smul]
  by_contra hno
  push Not at hno
  have hpos : 0 < z ⬝ᵥ z := lt_of_le_of_ne (dot_self_nonneg z) fun h => hz0 (dotProduct_self_eq_zero.mp h.symm)
  have row : ∀ i, ((B i i - μ) * z i) ^ 2 ≤ (∑ r, (if r = i then 0 else B r i ^ 2)) * (z ⬝ᵥ z) := by
    intro i
    have e : (B i i - μ) * z i = - ∑ r, (if r = i then 0 else B r i) * z r := by
      have := congrFun hBz i
      rw [mulVec, dotProduct, Pi.smul_apply, smul_eq_mul, ← Finset.sum_erase_add _ _ (mem_univ i)] at this
      rw [← Finset.sum_erase_add _ _ (mem_univ i)]
      have e2 : ∑ r ∈ univ.erase i, (if r = i then 0 else B r i) * z r = ∑ r ∈ univ.erase i, B i r * z r := by
        refine Finset.sum_congr rfl fun r hr => ?_
        have e3 : B r i = B i r := congrFun (congrFun hs i) r
        rw [if_neg (Finset.ne_of_mem_erase hr), e3]
      rw [e2, if_pos rfl, zero_mul, add_zero]
      linarith
    rw [e, neg_sq]
    refine (Finset.sum_mul_sq_le_sq_mul_sq _ _ _).trans (le_of_eq ?_)
    congr 1
    · exact Finset.sum_congr rfl fun r _ => by split <;> simp
    · simp [dotProduct, sq]
  have hsum := Finset.sum_le_sum fun i (_ : i ∈ (univ : Finset (Fin n))) => row i
  rw [← Finset.sum_mul] at hsum
  have h1 := mul_le_mul_of_nonneg_right (h.off hs hn hη) hpos.le
  have h2 : 6 * η * (z ⬝ᵥ z) < ∑ i, ((B i i - μ) * z i) ^ 2 := by
    rw [dotProduct, Finset.mul_sum]
    obtain ⟨j, hj⟩ : ∃ j, z j ≠ 0 := by
      by_contra hn
      push Not at hn
      exact hz0 (funext hn)
    refine Finset.sum_lt_sum (fun i _ => ?_) ⟨j, mem_univ j, ?_⟩
    · rw [mul_pow, sq (z i)]
      exact mul_le_mul_of_nonneg_right (hno i).le (mul_self_nonneg _)
    · rw [mul_pow, sq (z j)]
      exact mul_lt_mul_of_pos_right (hno j) (mul_self_pos.mpr hj)
  linarith

/-- A vector that is nearly an eigenvector is near an eigenvalue. -/
theorem near_eigenvalue (hA : Aᵀ = A) {v : Fin n → ℝ} (hv : v ⬝ᵥ v = 1) {d ρ : ℝ}
    (h : ∑ r, ((A *ᵥ v) r - d * v r) ^ 2 ≤ ρ) : ∃ (μ : ℝ) (y : Fin n → ℝ), y ≠ 0 ∧ A *ᵥ y = μ • y ∧ (d - μ) ^ 2 ≤ ρ := by
  have hH : A.IsHermitian := by rw [Matrix.IsHermitian, conjTranspose_eq_transpose_of_trivial, hA]
  by_contra hno
  push Not at hno
  have key : ∀ j, ρ < (d - hH.eigenvalues j) ^ 2 := by
    intro j
    refine hno (hH.eigenvalues j) (hH.eigenvectorBasis j).ofLp ?_ (hH.mulVec_eigenvectorBasis j)
    intro h0
    have := hH.eigenvectorBasis.orthonormal.1 j
    rw [show hH.eigenvectorBasis j = 0 from by ext i; exact congrFun h0 i] at this
    simp at this
  set b := hH.eigenvectorBasis
  let w : EuclideanSpace ℝ (Fin n) := WithLp.toLp 2 v
  let x : EuclideanSpace ℝ (Fin n) := WithLp.toLp 2 (A *ᵥ v - d • v)
  have hin : ∀ u : Fin n → ℝ, ∀ j, inner ℝ (b j) (WithLp.toLp 2 u) = (b j).ofLp ⬝ᵥ u := fun u j => by
    rw [EuclideanSpace.inner_eq_star_dotProduct]
    simp [dotProduct_comm]
  have hx : ∀ j, inner ℝ (b j) x = (hH.eigenvalues j - d) * inner ℝ (b j) w := fun j => by
    rw [hin, hin, dotProduct_sub, dotProduct_smul, dotProduct_mulVec, ← mulVec_transpose, hA, hH.mulVec_eigenvectorBasis,
      smul_dotProduct]
    simp only [smul_eq_mul]
    ring
  have hw : ∑ j, inner ℝ (b j) w ^ 2 = 1 := by
    have := b.sum_sq_norm_inner_right w
    simp only [Real.norm_eq_abs, sq_abs] at this
    rw [this, EuclideanSpace.norm_sq_eq]
    simpa [dotProduct, sq, w] using hv
  have hxx : ∑ j, inner ℝ (b j) x ^ 2 ≤ ρ := by
    have := b.sum_sq_norm_inner_right x
    simp only [Real.norm_eq_abs, sq_abs] at this
    rw [this, EuclideanSpace.norm_sq_eq]
    simpa [x] using h
  have hlt : ρ < ∑ j, inner ℝ (b j) x ^ 2 := by
    rw [← mul_one ρ, ← hw, Finset.mul_sum]
    obtain ⟨j, hj⟩ : ∃ j, inner ℝ (b j) w ≠ 0 := by
      by_contra hn
      push Not at hn
      simp [hn] at hw
    refine Finset.sum_lt_sum (fun i _ => ?_) ⟨j, mem_univ j, ?_⟩
    · rw [hx, mul_pow, ← neg_sq (hH.eigenvalues i - d), neg_sub]
      exact mul_le_mul_of_nonneg_right (key i).le (sq_nonneg _)
    · rw [hx, mul_pow, ← neg_sq (hH.eigenvalues j - d), neg_sub]
      exact mul_lt_mul_of_pos_right (key j) (by positivity)
  linarith

end

/-! ### The loop -/

theorem Between.stretches {n : Nat} {A : Nat → Nat → ℝ} {l L : ℝ} (h : Between (toMatrix n n A) l L)
    (hl : epsilon ℝ < l) : Stretches n A := by
  intro x hx
  let y : Fin n → ℝ := fun i => x i
  have e : (fun i : Fin n => ∑ k ∈ range n, A i k * x k) = toMatrix n n A *ᵥ y := by
    funext i
    rw [Finset.sum_range]
    rfl
  have hy : y ⬝ᵥ y = 1 := by
    rw [norm2_dot, Real.sqrt_eq_one] at hx
    exact hx
  have h1 := h.low y
  rw [hy, mul_one] at h1
  have h2 : (y ⬝ᵥ (toMatrix n n A *ᵥ y)) ^ 2 ≤ (y ⬝ᵥ y) * ((toMatrix n n A *ᵥ y) ⬝ᵥ (toMatrix n n A *ᵥ y)) := by
    have := Finset.sum_mul_sq_le_sq_mul_sq (univ : Finset (Fin n)) y (toMatrix n n A *ᵥ y)
    simpa [dotProduct, sq] using this
  rw [hy, one_mul] at h2
  rw [norm2_dot, e]
  refine Real.lt_sqrt_of_sq_lt (lt_of_lt_of_le ?_ h2)
  have : 0 < epsilon ℝ := Linalg.eps_pos
  exact pow_lt_pow_left₀ (lt_of_lt_of_le hl h1) this.le (by norm_num)

theorem norm2_diag (n : Nat) (B : Nat → Nat → ℝ) : norm2 n (fun i => B i i) = √(∑ i, (toMatrix n n B) i i ^ 2) := by
  rw [norm2, Finset.sum_range]
  rfl

section
variable {n : Nat} {A : Nat → Nat → ℝ} {a : Mat XR} {l L : ℝ}

/-- The diagonal is not small and not large. -/
theorem diag_norm {B : Matrix (Fin n) (Fin n) ℝ} (h : Between B l L) (hl : 0 < l) (hn : 1 ≤ n) (hn4 : n ≤ 4) :
    l ≤ √(∑ i, B i i ^ 2) ∧ √(∑ i, B i i ^ 2) ≤ 2 * L ∧ B.trace ≤ √n * √(∑ i, B i i ^ 2) ∧ 0 < B.trace ∧ 0 < L := by
  have hL : 0 < L := lt_of_lt_of_le hl ((h.diag ⟨0, hn⟩).1.trans (h.diag ⟨0, hn⟩).2)
  refine ⟨?_, ?_, ?_, ?_, hL⟩
  · refine Real.le_sqrt_of_sq_le ?_
    refine le_trans ?_ (Finset.single_le_sum (fun i _ => sq_nonneg (B i i)) (mem_univ ⟨0, hn⟩))
    exact pow_le_pow_left₀ hl.le (h.diag _).1 2
  · rw [Real.sqrt_le_left (by linarith)]
    refine (Finset.sum_le_sum fun i _ => pow_le_pow_left₀ (hl.le.trans (h.diag i).1) (h.diag i).2 2).trans ?_
    rw [Finset.sum_const, card_univ, Fintype.card_fin, nsmul_eq_mul]
    have : (n : ℝ) ≤ 4 := by exact_mod_cast hn4
    nlinarith [sq_nonneg L]
  · rw [← Real.sqrt_mul (Nat.cast_nonneg n)]
    refine Real.le_sqrt_of_sq_le ?_
    have := sq_sum_le_card_mul_sum_sq (s := (univ : Finset (Fin n))) (f := fun i => B i i)
    simpa [Matrix.trace] using this
  · exact Finset.sum_pos (fun i _ => lt_of_lt_of_le hl (h.diag i).1) ⟨⟨0, hn⟩, mem_univ _⟩

/-- What is known after `j` iterations that did not leave the loop. -/
def Going (n : Nat) (A : Nat → Nat → ℝ) (j : Nat) (st : Linalg.EigenState XR) : Prop :=
  VecIs st.eigenvalues n (fun _ => .fin 0) ∧ ∃ B V, EigInv n A st B V ∧
    ((j = 0 ∧ VecIs st.previous n (fun _ => .fin 0)) ∨
      (VecIs st.previous n (fun i => .fin (B i i)) ∧
        (j - 1 : ℝ) * (epsilon ℝ * (toMatrix n n A).trace) ≤ √2 * √n * rise (toMatrix n n B)))

/-- What is known when the loop is left. -/
def Left (n : Nat) (A : Nat → Nat → ℝ) (L : ℝ) (st : Linalg.EigenState XR) : Prop :=
  ∃ B V, EigInv n A st B V ∧ VecIs st.eigenvalues n (fun i => .fin (B i i)) ∧
    Settled (toMatrix n n B) (epsilon ℝ * L * max 1 (2 * L))

theorem eigen_step (h : Between (toMatrix n n A) l L) (hl : epsilon ℝ < l) (hn : 1 ≤ n) (hn4 : n ≤ 4) {j : Nat}
    {st : Linalg.EigenState XR} (hI : Going n A j st) :
    ∃ go st', Linalg.eigenStep n false st = .ok (go, st') ∧ if go then Going n A (j + 1) st' else Left n A L st' := by
  have hε : 0 < epsilon ℝ := Linalg.eps_pos
  have hε1 : epsilon ℝ < 1 := by unfold epsilon; norm_num
  obtain ⟨hev, B, V, hinv, hp⟩ := hI
  obtain ⟨fp, hfp, hcase⟩ : ∃ fp : Nat → ℝ, VecIs st.previous n (fun i => .fin (fp i)) ∧
      ((j = 0 ∧ fp = fun _ => 0) ∨ (fp = (fun i => B i i) ∧
        (j - 1 : ℝ) * (epsilon ℝ * (toMatrix n n A).trace) ≤ √2 * √n * rise (toMatrix n n B))) := by
    rcases hp with ⟨h1, h2⟩ | ⟨h1, h2⟩
    · exact ⟨_, h2, Or.inl ⟨h1, rfl⟩⟩
    · exact ⟨_, h1, Or.inr ⟨rfl, h2⟩⟩
  obtain ⟨go, st', e, B', V', Q, R, hinv', hev', hQ, hup, hQR, hRQ, hpr, htest⟩ :=
    eigenStep_qr (h.stretches hl) hinv hfp ⟨_, hev⟩
  refine ⟨go, st', e, ?_⟩
  have hB : Between (toMatrix n n B) l L := by rw [hinv.similar]; exact h.similar hinv.ortho
  have hB' : Between (toMatrix n n B') l L := by rw [hinv'.similar]; exact h.similar hinv'.ortho
  have hl0 : 0 < l := hε.trans hl
  obtain ⟨d1, d2, d3, d4, hL⟩ := diag_norm hB' hl0 hn hn4
  rw [← norm2_diag] at d1 d2 d3
  replace htest := htest (lt_of_lt_of_le hl d1)
  have htr : (toMatrix n n B').trace = (toMatrix n n B).trace := by rw [← hRQ, ← hQR, Matrix.trace_mul_comm]
  have htrA : (toMatrix n n B').trace = (toMatrix n n A).trace := by
    rw [hinv'.similar, Matrix.mul_assoc, Matrix.trace_mul_comm, Matrix.mul_assoc, mul_eq_one_comm.mp hinv'.ortho,
      Matrix.mul_one]
  have hR : ∀ i j : Fin n, j < i → toMatrix n n R i j = 0 := fun i j hij => hup i j hij i.2
  rcases hcase with ⟨rfl, rfl⟩ | ⟨rfl, hrise⟩
  · -- the first iteration
    have hgo : go = true := by
      by_contra hgo
      have := htest.mp (by simpa using hgo)
      simp only [sub_zero] at this
      rcases this with h1 | h1
      · linarith
      · nlinarith
    rw [hgo] at hev' ⊢
    refine ⟨hev', B', V', hinv', Or.inr ⟨hpr hgo, ?_⟩⟩
    have := (rise_bound fun i => (hl0.le.trans (hB'.diag i).1)).1
    norm_num
    positivity
  · have hmove : norm2 n (fun i => B' i i - B i i) = move (toMatrix n n B) (toMatrix n n B') := by
      rw [norm2, Finset.sum_range]
      rfl
    rw [hmove] at htest
    rcases go with _ | _
    · refine ⟨B', V', hinv', hev', fun k => ?_⟩
      have h1 := ascent hQ hQR hRQ hR hB' hl0.le hL k
      have h2 := head_move hn4 htr k
      have h3 : move (toMatrix n n B) (toMatrix n n B') ≤ epsilon ℝ * max 1 (2 * L) := by
        rcases htest.mp rfl with h | h
        · exact h.trans (le_mul_of_one_le_right hε.le (le_max_left _ _))
        · exact h.le.trans (mul_le_mul_of_nonneg_left (d2.trans (le_max_right _ _)) hε.le)
      calc corner (toMatrix n n B') k ≤ L * (epsilon ℝ * max 1 (2 * L)) :=
            h1.trans (mul_le_mul_of_nonneg_left (h2.trans h3) hL.le)
        _ = epsilon ℝ * L * max 1 (2 * L) := by ring
    · refine ⟨hev', B', V', hinv', Or.inr ⟨hpr rfl, ?_⟩⟩
      have h1 : ¬ (move (toMatrix n n B) (toMatrix n n B') ≤ epsilon ℝ ∨
          move (toMatrix n n B) (toMatrix n n B') < epsilon ℝ * norm2 n (fun i => B' i i)) := fun h =>
        absurd (htest.mpr h) (by simp)
      push Not at h1
      have h2 := move_le hQ hQR hRQ hR hB' hl0.le hL
      have h3 : epsilon ℝ * (toMatrix n n A).trace ≤ √n * (epsilon ℝ * norm2 n (fun i => B' i i)) := by
        rw [← htrA]
        nlinarith
      have h4 : √n * (epsilon ℝ * norm2 n (fun i => B' i i)) ≤
          √n * (√2 * (rise (toMatrix n n B') - rise (toMatrix n n B))) :=
        mul_le_mul_of_nonneg_left (h1.2.trans h2) (Real.sqrt_nonneg _)
      push_cast
      nlinarith

/-- The number of iterations that suffices. -/
def Enough (n niter : Nat) : Prop := (n - 1 : ℝ) * √(2 * n) < (niter - 1 : ℝ) * epsilon ℝ

theorem eigen_loop (ha : MatIs a n n (fun i j => .fin (A i j))) (h : Between (toMatrix n n A) l L)
    (hl : epsilon ℝ < l) (niter : Nat) :
    ∃ ev v, Linalg.eigen a niter false = .ok (ev, v) ∧ ∃ B V : Nat → Nat → ℝ,
      MatIs v n n (fun i j => .fin (V i j)) ∧ (toMatrix n n V).transpose * toMatrix n n V = 1 ∧
      toMatrix n n B = (toMatrix n n V).transpose * toMatrix n n A * toMatrix n n V ∧
      ((VecIs ev n (fun i => .fin (B i i)) ∧ Settled (toMatrix n n B) (epsilon ℝ * L * max 1 (2 * L))) ∨
        (VecIs ev n (fun _ => .fin 0) ∧ ¬ Enough n niter)) := by
  have hε : 0 < epsilon ℝ := Linalg.eps_pos
  obtain ⟨a0, i0, v0, h0, h1, hv, hrun⟩ := eigen_start ha (fun i j _ _ => Ext.finite_fin (A i j))
  have hz : VecIs (Vec.zeros n) n (fun _ => (.fin 0 : XR)) :=
    (Vec.zeros_is ha.rpos ha.rle).congr fun _ _ => by simp
  have hone : toMatrix n n (fun i j : Nat => if i = j then (1 : ℝ) else 0) = 1 := by
    ext i j
    simp [toMatrix, Matrix.one_apply, Fin.ext_iff]
  obtain ⟨st, e, hst⟩ := loopRange_total (ε := LinalgError)
    (fun _ st => Linalg.eigenStep n false st) (fun j st => Going n A j st) (fun st => Left n A L st)
    0 niter (Nat.zero_le _)
    { a := a0, i := i0, q := Mat.zeros n n, r := Mat.zeros n n, eigenvectors := v0,
      eigenvalues := Vec.zeros n, previous := Vec.zeros n, delta := Vec.zeros n }
    ⟨hz, A, fun i j => if i = j then 1 else 0, ⟨h0, hv.congr fun i j _ _ => by split <;> simp,
      ⟨_, Mat.zeros_of ha⟩, ⟨_, Mat.zeros_of ha⟩, ⟨_, hz⟩, ⟨_, hz⟩, by simp [hone], by simp [hone]⟩, Or.inl ⟨rfl, hz⟩⟩
    (fun j st _ _ hI => eigen_step h hl ha.rpos ha.rle hI)
  have e' : loopFrom 0 niter (fun _ st => Linalg.eigenStep n false st) _ = .ok st := e
  refine ⟨st.eigenvalues, st.eigenvectors, by rw [hrun, e']; rfl, ?_⟩
  rcases hst with ⟨hev, B, V, hI, hc⟩ | ⟨B, V, hI, hev, hS⟩
  · refine ⟨B, V, hI.vec, hI.ortho, hI.similar, Or.inr ⟨hev, fun hN => ?_⟩⟩
    have hB : Between (toMatrix n n B) l L := by rw [hI.similar]; exact h.similar hI.ortho
    obtain ⟨-, -, -, d4, -⟩ := diag_norm hB (hε.trans hl) ha.rpos ha.rle
    have htrA : (toMatrix n n B).trace = (toMatrix n n A).trace := by
      rw [hI.similar, Matrix.mul_assoc, Matrix.trace_mul_comm, Matrix.mul_assoc, mul_eq_one_comm.mp hI.ortho,
        Matrix.mul_one]
    have hr := (rise_bound (B := toMatrix n n B) fun i => ((hε.trans hl).le.trans (hB.diag i).1)).2
    have hcast : ((n - 1 : ℕ) : ℝ) = n - 1 := by rw [Nat.cast_sub ha.rpos]; simp
    rw [hcast] at hr
    unfold Enough at hN
    rw [Real.sqrt_mul (by norm_num)] at hN
    rcases hc with ⟨rfl, -⟩ | ⟨-, hc⟩
    · have : (0 : ℝ) ≤ (n - 1 : ℝ) * (√2 * √n) := by rw [← hcast]; positivity
      push_cast at hN
      nlinarith
    · have h2 : √2 * √n * rise (toMatrix n n B) ≤ √2 * √n * ((n - 1 : ℝ) * (toMatrix n n B).trace) :=
        mul_le_mul_of_nonneg_left hr (by positivity)
      have h3 := mul_lt_mul_of_pos_right hN d4
      rw [← htrA] at hc
      nlinarith
  · exact ⟨B, V, hI.vec, hI.ortho, hI.similar, Or.inl ⟨hev, hS⟩⟩

/-- C97: `eigen` without shift on a symmetric matrix whose quadratic form is between `l` and `L` on the unit sphere, with
`l` above EPSILON.  It succeeds and returns an orthogonal matrix.  Either it returns zeros, and then fewer than
`(n - 1) √(2 n) / EPSILON + 2` iterations were allowed.  Or each number it returns is between `l` and `L`, its column is
an eigenvector up to a residual whose square is at most `2 EPSILON L max(1, 2 L)`, it is as near to an eigenvalue, and
every eigenvalue is near one of the numbers. -/
theorem C97_eigen (ha : MatIs a n n (fun i j => .fin (A i j))) (hs : (toMatrix n n A)ᵀ = toMatrix n n A)
    (hlow : ∀ x, l * (x ⬝ᵥ x) ≤ x ⬝ᵥ (toMatrix n n A *ᵥ x)) (hhigh : ∀ x, x ⬝ᵥ (toMatrix n n A *ᵥ x) ≤ L * (x ⬝ᵥ x))
    (hl : epsilon ℝ < l) (niter : Nat) :
    ∃ ev v, Linalg.eigen a niter false = .ok (ev, v) ∧ ∃ (V : Nat → Nat → ℝ) (d : Nat → ℝ),
      MatIs v n n (fun i j => .fin (V i j)) ∧ (toMatrix n n V)ᵀ * toMatrix n n V = 1 ∧
      VecIs ev n (fun i => .fin (d i)) ∧
      (((∀ i, i < n → d i = 0) ∧ (niter - 1 : ℝ) * epsilon ℝ ≤ (n - 1 : ℝ) * √(2 * n)) ∨
        (∀ i : Fin n, l ≤ d i ∧ d i ≤ L ∧
          ∑ r : Fin n, ((toMatrix n n A * toMatrix n n V) r i - d i * V r i) ^ 2 ≤ 2 * (epsilon ℝ * L * max 1 (2 * L)) ∧
          ∃ (μ : ℝ) (y : Fin n → ℝ), y ≠ 0 ∧ toMatrix n n A *ᵥ y = μ • y ∧
            (d i - μ) ^ 2 ≤ 2 * (epsilon ℝ * L * max 1 (2 * L))) ∧
        ∀ (μ : ℝ) (y : Fin n → ℝ), y ≠ 0 → toMatrix n n A *ᵥ y = μ • y →
          ∃ i : Fin n, (d i - μ) ^ 2 ≤ 6 * (epsilon ℝ * L * max 1 (2 * L))) := by
  have hb : Between (toMatrix n n A) l L := ⟨hs, hlow, hhigh⟩
  have hε : 0 < epsilon ℝ := Linalg.eps_pos
  obtain ⟨ev, v, e, B, V, hv, hV, hB, hc⟩ := eigen_loop ha hb hl niter
  refine ⟨ev, v, e, V, ?_⟩
  rcases hc with ⟨hev, hS⟩ | ⟨hev, hN⟩
  · refine ⟨fun i => B i i, hv, hV, hev, Or.inr ⟨fun i => ?_, fun μ y hy he => ?_⟩⟩
    · have hBb : Between (toMatrix n n B) l L := by rw [hB]; exact hb.similar hV
      have hr := hS.residual hV hB hBb.symm i
      refine ⟨(hBb.diag i).1, (hBb.diag i).2, hr, ?_⟩
      refine near_eigenvalue hs (v := fun r => V r i) ?_ hr
      have := congrFun (congrFun hV i) i
      rwa [Matrix.mul_apply, Matrix.one_apply_eq] at this
    · have hBb : Between (toMatrix n n B) l L := by rw [hB]; exact hb.similar hV
      have hL : 0 < L := lt_of_lt_of_le (hε.trans hl) ((hBb.diag ⟨0, ha.rpos⟩).1.trans (hBb.diag ⟨0, ha.rpos⟩).2)
      exact hS.eigenvalue hV hB hBb.symm ha.rle (by positivity) hy he
  · refine ⟨fun _ => 0, hv, hV, hev, Or.inl ⟨fun _ _ => rfl, ?_⟩⟩
    unfold Enough at hN
    linarith

/-- C97: up to size 3, 48991 iterations always suffice (the argument is a `u16`), and when the largest value `L` of the
form is at least 1/2 the results are eigenvalues and eigenvectors up to `0.02 L`. -/
theorem C97_converges (ha : MatIs a n n (fun i j => .fin (A i j))) (hn : n ≤ 3) (hs : (toMatrix n n A)ᵀ = toMatrix n n A)
    (hlow : ∀ x, l * (x ⬝ᵥ x) ≤ x ⬝ᵥ (toMatrix n n A *ᵥ x)) (hhigh : ∀ x, x ⬝ᵥ (toMatrix n n A *ᵥ x) ≤ L * (x ⬝ᵥ x))
    (hl : epsilon ℝ < l) (hL : 1 / 2 ≤ L) {niter : Nat} (hN : 48991 ≤ niter) :
    ∃ ev v, Linalg.eigen a niter false = .ok (ev, v) ∧ ∃ (V : Nat → Nat → ℝ) (d : Nat → ℝ),
      MatIs v n n (fun i j => .fin (V i j)) ∧ (toMatrix n n V)ᵀ * toMatrix n n V = 1 ∧
      VecIs ev n (fun i => .fin (d i)) ∧
      (∀ i : Fin n, l ≤ d i ∧ d i ≤ L ∧
        ∑ r : Fin n, ((toMatrix n n A * toMatrix n n V) r i - d i * V r i) ^ 2 ≤ (2 / 100 * L) ^ 2 ∧
        ∃ (μ : ℝ) (y : Fin n → ℝ), y ≠ 0 ∧ toMatrix n n A *ᵥ y = μ • y ∧ |d i - μ| ≤ 2 / 100 * L) ∧
      ∀ (μ : ℝ) (y : Fin n → ℝ), y ≠ 0 → toMatrix n n A *ᵥ y = μ • y → ∃ i : Fin n, |d i - μ| ≤ 35 / 1000 * L := by
  obtain ⟨ev, v, e, V, d, h1, h2, h3, h4⟩ := C97_eigen ha hs hlow hhigh hl niter
  have hm : max 1 (2 * L) = 2 * L := max_eq_right (by linarith)
  have he : epsilon ℝ = 1 / 10000 := by unfold epsilon; norm_num
  rw [hm, he] at h4
  have hN' : (48991 : ℝ) ≤ niter := by exact_mod_cast hN
  refine ⟨ev, v, e, V, d, h1, h2, h3, ?_⟩
  rcases h4 with ⟨-, h4⟩ | ⟨h4, h5⟩
  · exfalso
    have hs6 : √6 < 24495 / 10000 := by
      rw [Real.sqrt_lt' (by norm_num)]
      norm_num
    have hn1 : 1 ≤ n := ha.rpos
    have hsn : √(2 * n) ≤ √6 := Real.sqrt_le_sqrt (by
      have : (n : ℝ) ≤ 3 := by exact_mod_cast hn
      linarith)
    have : (n - 1 : ℝ) * √(2 * n) ≤ 2 * √6 := by
      have h1 : (n : ℝ) ≤ 3 := by exact_mod_cast hn
      have h2 : (1 : ℝ) ≤ n := by exact_mod_cast hn1
      nlinarith [Real.sqrt_nonneg (2 * (n : ℝ)), Real.sqrt_nonneg 6]
    linarith
  · refine ⟨fun i => ?_, fun μ y hy hm => ?_⟩
    · obtain ⟨k1, k2, k3, μ, y, k4, k5, k6⟩ := h4 i
      refine ⟨k1, k2, k3.trans (by nlinarith), μ, y, k4, k5, abs_le_of_sq_le_sq (k6.trans (by nlinarith)) (by linarith)⟩
    · obtain ⟨i, hi⟩ := h5 μ y hy hm
      exact ⟨i, abs_le_of_sq_le_sq (hi.trans (by nlinarith)) (by linarith)⟩

end

/-- Beside `C97_eigen` and `C97_converges`: a matrix that meets the hypotheses. -/
example : ∃ ev v, Linalg.eigen (Mat.of 2 2 fun i j => (.fin (if i = j then 2 else 1) : XR)) 48991 false = .ok (ev, v) ∧
    ∃ d : Nat → ℝ, VecIs ev 2 (fun i => .fin (d i)) ∧ ∃ i : Fin 2, |d i - 3| ≤ 35 / 1000 * 3 := by
  have hd : ∀ x : Fin 2 → ℝ, x ⬝ᵥ (toMatrix 2 2 (fun i j : Nat => if i = j then (2 : ℝ) else 1) *ᵥ x) =
      2 * x 0 ^ 2 + 2 * x 0 * x 1 + 2 * x 1 ^ 2 := by
    intro x
    simp [toMatrix, Matrix.mulVec, dotProduct, Fin.sum_univ_two]
    ring
  have hx : ∀ x : Fin 2 → ℝ, x ⬝ᵥ x = x 0 ^ 2 + x 1 ^ 2 := by
    intro x
    simp [dotProduct, Fin.sum_univ_two]
    ring
  obtain ⟨ev, v, e, V, d, _, _, h1, _, h2⟩ := C97_converges (l := 1) (L := 3) (n := 2)
    (A := fun i j => if i = j then 2 else 1) (niter := 48991)
    (a := Mat.of 2 2 fun i j => (.fin (if i = j then 2 else 1) : XR))
    (Mat.of_is _ (by decide) (by decide) (by decide) (by decide)) (by decide)
    (by ext i j; simp [toMatrix, eq_comm])
    (fun x => by rw [hd, hx]; nlinarith [sq_nonneg (x 0 + x 1)])
    (fun x => by rw [hd, hx]; nlinarith [sq_nonneg (x 0 - x 1)])
    (by unfold epsilon; norm_num) (by norm_num) (by decide)
  refine ⟨ev, v, e, d, h1, h2 3 (fun _ => 1) (fun h => one_ne_zero (congrFun h 0)) ?_⟩
  ext i
  fin_cases i <;> simp [toMatrix, Matrix.mulVec, dotProduct, Fin.sum_univ_two] <;> norm_num

/-- The first two numbers that `eigen` returns in binary32 for a matrix of literals. -/
def feigen (l : List (List ℚ)) (niter : Nat) : Res LinalgError (List F32) := do
  let (ev, _) ← Linalg.eigen (fmat l) niter false
  .ok [← ev.getElement 0, ← ev.getElement 1]

/-- C97: the test for convergence compares two iterations, so it does not see that the elements outside the diagonal have
not vanished.  In binary32, `eigen` on `[[1, b], [b, 1]]` with `b = 7/1024` stops in its second iteration, and both numbers
that it returns are at least `6/1024` away from both eigenvalues `1 + b` and `1 - b`, whatever number of iterations from 2
on is allowed. -/
theorem C97_inexact : ∃ (a : Mat F32) (A : Nat → Nat → F32), MatIs a 2 2 A ∧ ∀ niter, 2 ≤ niter →
    ∃ ev v, ∃ D : Nat → F32, Linalg.eigen a niter false = .ok (ev, v) ∧ (∀ i, i < 2 → ev.getElement i = .ok (D i)) ∧
      ∀ (μ : ℝ) (y : Fin 2 → ℝ), y ≠ 0 → toMatrix 2 2 (fun i j => ⟪A i j⟫) *ᵥ y = μ • y →
        ∀ i, i < 2 → 6 / 1024 ≤ |⟪D i⟫ - μ| := by
  have h : feigen [[1, 7 / 1024], [7 / 1024, 1]] 2 = .ok [⟨.fin (262193 / 262144)⟩, ⟨.fin (262095 / 262144)⟩] := by
    decide +kernel
  unfold feigen at h
  obtain ⟨⟨ev, v⟩, e, h⟩ := Res.bind_eq_ok.mp h
  have ha : MatIs (fmat [[1, 7 / 1024], [7 / 1024, 1]]) 2 2 _ :=
    Mat.of_is (fun i j => (Scalar.lit ((([[1, 7 / 1024], [7 / 1024, 1]] : List (List ℚ)).getD i []).getD j 0) : F32))
      (by decide) (by decide) (by decide) (by decide)
  obtain ⟨x, hx, h⟩ := Res.bind_eq_ok.mp h
  obtain ⟨y, hy, h⟩ := Res.bind_eq_ok.mp h
  simp only [Except.ok.injEq, List.cons.injEq, and_true] at h
  obtain ⟨rfl, rfl⟩ := h
  have v1 : ⟪(Scalar.lit 1 : F32)⟫ = 1 := Rounded.one_val
  have vb : ⟪(Scalar.lit (7 / 1024) : F32)⟫ = 7 / 1024 := by rw [val_lit (by decide +kernel)]; norm_num
  have hall : ∀ niter, 2 ≤ niter → Linalg.eigen (fmat [[1, 7 / 1024], [7 / 1024, 1]]) niter false = .ok (ev, v) := by
    rcases C30_not_converged ha e with hz | hz
    · have := hz.get 0 (by omega)
      rw [hx] at this
      exact absurd this (by decide +kernel)
    · exact hz
  refine ⟨_, _, ha, fun niter hn => ⟨ev, v, fun i => if i = 0 then ⟨.fin (262193 / 262144)⟩ else ⟨.fin (262095 / 262144)⟩,
    hall niter hn, fun i hi => ?_, fun μ y hy0 he i hi => ?_⟩⟩
  · obtain rfl | rfl : i = 0 ∨ i = 1 := by omega
    · exact hx
    · exact hy
  · have e0 := congrFun he 0
    have e1 := congrFun he 1
    simp [toMatrix, Matrix.mulVec, dotProduct, Fin.sum_univ_two, v1, vb] at e0 e1
    have hμ : μ = 1 + 7 / 1024 ∨ μ = 1 - 7 / 1024 := by
      by_contra hc
      push Not at hc
      have p1 : y 0 + y 1 = 0 :=
        (mul_eq_zero.mp (show (1 + 7 / 1024 - μ) * (y 0 + y 1) = 0 by linarith)).resolve_left (sub_ne_zero.mpr hc.1.symm)
      have p2 : y 0 - y 1 = 0 :=
        (mul_eq_zero.mp (show (1 - 7 / 1024 - μ) * (y 0 - y 1) = 0 by linarith)).resolve_left (sub_ne_zero.mpr hc.2.symm)
      refine hy0 (funext fun k => ?_)
      fin_cases k
      · show y 0 = 0
        linarith
      · show y 1 = 0
        linarith
    have x0 : ⟪(⟨.fin (262193 / 262144)⟩ : F32)⟫ = 262193 / 262144 := by
      show ((262193 / 262144 : ℚ) : ℝ) = _
      norm_num
    have x1 : ⟪(⟨.fin (262095 / 262144)⟩ : F32)⟫ = 262095 / 262144 := by
      show ((262095 / 262144 : ℚ) : ℝ) = _
      norm_num
    obtain rfl | rfl : i = 0 ∨ i = 1 := by omega
    · show 6 / 1024 ≤ |⟪(⟨.fin (262193 / 262144)⟩ : F32)⟫ - μ|
      rw [x0]
      rcases hμ with rfl | rfl <;> norm_num [abs_of_neg, abs_of_pos]
    · show 6 / 1024 ≤ |⟪(⟨.fin (262095 / 262144)⟩ : F32)⟫ - μ|
      rw [x1]
      rcases hμ with rfl | rfl <;> norm_num [abs_of_neg, abs_of_pos]

end Verif
