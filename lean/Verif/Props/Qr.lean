import Verif.Lib.Qr

/-
`qr_decomp` (C28).
-/

set_option linter.unusedSectionVars false
set_option linter.unusedSimpArgs false

namespace Verif
open Scalar Finset

/-- Each column of `A` stays more than the threshold away from every combination of the columns
before it. -/
def ColumnsApart (n : Nat) (A : Nat → Nat → ℝ) : Prop :=
  ∀ j, j < n → ∀ d : Nat → ℝ, epsilon ℝ < norm2 n (fun i => A i j - ∑ k ∈ range j, d k * A i k)

theorem Mat.mul_fin {K : Type} [Field K] [LinearOrder K] [Elementary K] {a b s : Mat (Ext K)}
    {r k c : Nat} {A B : Nat → Nat → K} {f0 : Nat → Nat → Ext K}
    (ha : MatIs a r k (fun i j => .fin (A i j))) (hb : MatIs b k c (fun i j => .fin (B i j)))
    (hs : MatIs s r c f0) :
    ∃ s', exec s (Mat.mul a b) = .ok s' ∧
      MatIs s' r c (fun i j => .fin (∑ t ∈ range k, A i t * B t j)) := by
  have hterm : ∀ i j m, sumUp m (Mat.cellTerm (fun i j => (.fin (A i j) : Ext K))
      (fun i j => .fin (B i j)) i j) = .fin (∑ t ∈ range m, A i t * B t j) := by
    intro i j m
    rw [show Mat.cellTerm (fun i j => (.fin (A i j) : Ext K)) (fun i j => .fin (B i j)) i j =
      fun t => .fin (A i t * B t j) from rfl, sumUp_fin]
  refine ⟨_, exec_ok (Mat.mul_ok ha hb hs fun i j l _ _ _ => ?_), (hs.overwrite _).congr
    fun i j _ _ => hterm i j k⟩
  rw [hterm]; simp

variable {a : Mat XR} {n : Nat} {A : Nat → Nat → ℝ}

/-- `qr_decomp` of a square matrix: the loop, then `R = Qᵀ A`. -/
theorem qr_run (ha : MatIs a n n (fun i j => .fin (A i j))) :
    ∃ q r, a.qrDecomp = .ok (q, r) ∧ ∃ Q : Nat → Nat → ℝ, MatIs q n n (fun i j => .fin (Q i j)) ∧
      MatIs r n n (fun i j => .fin (∑ k ∈ range n, Q k i * A k j)) ∧
      (QrInv n A n Q ∨ ∃ c, c < n ∧ ∃ d : Nat → ℝ,
        norm2 n (fun i => A i c - ∑ k ∈ range c, d k * A i k) ≤ epsilon ℝ) := by
  obtain ⟨q0, e0, hq0⟩ := Mat.exec_of_stores (Mat.copyFrom_stores (Mat.zeros_of ha) ha)
    (Mat.zeros_of ha) (fun i j _ _ => Ext.finite_fin (A i j))
  obtain ⟨q, e1, Q, hq, hQ⟩ := qrLoop_ok hq0
  obtain ⟨t0, e2, ht0⟩ := Mat.exec_of_stores (Mat.copyFrom_stores (Mat.zeros_of ha) hq)
    (Mat.zeros_of ha) (fun i j _ _ => Ext.finite_fin (Q i j))
  obtain ⟨t, e3, ht⟩ := Mat.exec_transpose ht0 (fun i j _ _ => Ext.finite_fin (Q i j))
  obtain ⟨r, e4, hr⟩ := Mat.mul_fin ht ha (Mat.zeros_of ha)
  refine ⟨q, r, ?_, Q, hq, hr, hQ⟩
  unfold Mat.qrDecomp
  simp only [ha.rows_eq, ha.cols_eq, Mat.init_of ha, Res.ok_bind, e0, e1, e2, e3, e4]

theorem toMatrix_transpose {K : Type} [Field K] (r c : Nat) (B : Nat → Nat → K) :
    (toMatrix r c B).transpose = toMatrix c r (fun i j => B j i) := rfl

/-- C28: if each column stays away from the earlier ones, `Q` has orthonormal columns, `R` is upper
triangular with positive diagonal, and `Q * R` is the matrix. -/
theorem C28_qr (ha : MatIs a n n (fun i j => .fin (A i j))) (h : ColumnsApart n A) :
    ∃ q r, a.qrDecomp = .ok (q, r) ∧ ∃ Q R : Nat → Nat → ℝ,
      MatIs q n n (fun i j => .fin (Q i j)) ∧ MatIs r n n (fun i j => .fin (R i j)) ∧
      (toMatrix n n Q).transpose * toMatrix n n Q = 1 ∧
      (∀ i j, j < i → i < n → R i j = 0) ∧ (∀ i, i < n → 0 < R i i) ∧
      toMatrix n n Q * toMatrix n n R = toMatrix n n A := by
  obtain ⟨q, r, e, Q, hq, hr, hQ⟩ := qr_run ha
  rcases hQ with hI | ⟨c, hc, d, hd⟩
  swap
  · exact absurd hd (not_le.mpr (h c hc d))
  have hort : (toMatrix n n Q).transpose * toMatrix n n Q = 1 := by
    rw [toMatrix_transpose, toMatrix_mul]
    ext i j
    simp only [toMatrix]
    rw [hI.ortho i j i.2 j.2, Matrix.one_apply]
    simp [Fin.ext_iff]
  have hR : ∀ i j, i < n → j < n → ∀ e : Nat → ℝ, (∀ i, A i j = ∑ k ∈ range (j + 1), e k * Q i k) →
      ∑ k ∈ range n, Q k i * A k j = if i ≤ j then e i else 0 := by
    intro i j hi hj e he
    have e1 : ∑ k ∈ range n, Q k i * A k j =
        ∑ m ∈ range (j + 1), e m * ∑ k ∈ range n, Q k i * Q k m := by
      simp only [Finset.mul_sum]
      rw [Finset.sum_comm]
      refine Finset.sum_congr rfl fun k _ => ?_
      rw [he k, Finset.mul_sum]
      exact Finset.sum_congr rfl fun m _ => by ring
    rw [e1, Finset.sum_congr rfl (g := fun m => if i = m then e m else 0) fun m hm => by
      rw [hI.ortho i m hi (by have := Finset.mem_range.mp hm; omega)]
      split <;> simp]
    rw [Finset.sum_ite_eq]
    simp [Nat.lt_succ_iff]
  refine ⟨q, r, e, Q, _, hq, hr, hort, ?_, ?_, ?_⟩
  · intro i j hij hi
    obtain ⟨e, _, he⟩ := hI.inQ j (by omega)
    rw [hR i j hi (by omega) e he, if_neg (by omega)]
  · intro i hi
    obtain ⟨e, hpos, he⟩ := hI.inQ i hi
    rw [hR i i hi hi e he, if_pos (le_refl _)]
    exact hpos
  · rw [← toMatrix_mul n n n (fun i j => Q j i) A, ← toMatrix_transpose n n Q, ← mul_assoc,
      mul_eq_one_comm.mp hort, one_mul]

/-- C28: `qr_decomp` reports success for every square matrix, whatever its rank. -/
theorem C28_total (ha : MatIs a n n (fun i j => .fin (A i j))) :
    ∃ q r, a.qrDecomp = .ok (q, r) := by
  obtain ⟨q, r, e, _⟩ := qr_run ha
  exact ⟨q, r, e⟩

/-- diag(1, 0, 2). -/
def exDiag : Mat XQ := Mat.of 3 3 fun i j => .fin (tbl [[1, 0, 0], [0, 0, 0], [0, 0, 2]] i j)

/-- C28: on a matrix of lower rank it can return, with success, factors whose product is not the
matrix: here element (2,2) of `Q * R` is 8 instead of 2. -/
theorem C28_deficient_wrong :
    exDiag.getElement 2 2 = .ok (.fin 2) ∧ factorsAt exDiag.qrDecomp 2 2 = .ok (.fin 8) := by
  constructor <;> decide +kernel

/-! ### Matrices that are not square -/

section
variable {F : Type} [Scalar F]

theorem qrColumn_shape {q q' : Mat F} {r c col : Nat} {go : Bool} (hq : ∃ f, MatIs q r c f)
    (hc : col < c) (he : Mat.qrColumn r col q = .ok (go, q')) : ∃ f, MatIs q' r c f := by
  unfold Mat.qrColumn at he
  obtain ⟨q1, e1, he⟩ := Res.bind_eq_ok.mp he
  have hq1 : ∃ f, MatIs q1 r c f := by
    refine foldRange_inv_ok _ (fun _ (q : Mat F) => ∃ f, MatIs q r c f) 0 col (Nat.zero_le _) q q1 hq
      ?_ e1
    intro s b b' _ hs hb e
    obtain ⟨d, _, e⟩ := Res.bind_eq_ok.mp e
    refine foldRange_inv_ok _ (fun _ (q : Mat F) => ∃ f, MatIs q r c f) 0 r (Nat.zero_le _) b b' hb
      ?_ e
    intro k b b' _ hk ⟨f, hb⟩ e
    rw [hb.get k col hk hc, Res.ok_bind, hb.get k s hk (by omega), Res.ok_bind] at e
    exact ⟨_, (hb.exec_set_inv hk hc e).2⟩
  obtain ⟨d, _, he⟩ := Res.bind_eq_ok.mp he
  dsimp only at he
  split at he
  · obtain ⟨q2, e2, he⟩ := Res.bind_eq_ok.mp he
    cases he
    refine foldRange_inv_ok _ (fun _ (q : Mat F) => ∃ f, MatIs q r c f) 0 r (Nat.zero_le _) q1 q' hq1
      ?_ e2
    intro k b b' _ hk ⟨f, hb⟩ e
    rw [hb.get k col hk hc, Res.ok_bind] at e
    exact ⟨_, (hb.exec_set_inv hk hc e).2⟩
  · cases he
    exact hq1

/-- C28: on a matrix that is not square `qr_decomp` never succeeds, in every arithmetic. -/
theorem C28_not_square {a : Mat F} {r c : Nat} {f : Nat → Nat → F} (ha : MatIs a r c f)
    (hrc : r ≠ c) (x : Mat F × Mat F) : a.qrDecomp ≠ .ok x := by
  intro h
  unfold Mat.qrDecomp at h
  simp only [ha.rows_eq, ha.cols_eq, Mat.init_of ha, Res.ok_bind] at h
  obtain ⟨q0, e0, h⟩ := Res.bind_eq_ok.mp h
  obtain ⟨q, e1, h⟩ := Res.bind_eq_ok.mp h
  obtain ⟨t0, e2, h⟩ := Res.bind_eq_ok.mp h
  obtain ⟨t, e3, h⟩ := Res.bind_eq_ok.mp h
  obtain ⟨m, e4, h⟩ := Res.bind_eq_ok.mp h
  have hq0 := (Mat.exec_stores_inv (Mat.copyFrom_stores (Mat.zeros_of ha) ha) (Mat.zeros_of ha) e0).2
  have hq : ∃ f, MatIs q r c f := by
    rcases loopRange_inv_ok _ (fun _ (q : Mat F) => ∃ f, MatIs q r c f) (fun q => ∃ f, MatIs q r c f)
      0 c (Nat.zero_le _) q0 q ⟨_, hq0⟩ (fun i b b' _ hi hb e => qrColumn_shape hb hi e)
      (fun i b b' _ hi hb e => qrColumn_shape hb hi e) e1 with h | h <;> exact h
  obtain ⟨g, hq⟩ := hq
  obtain ⟨hfin, ht0⟩ := Mat.exec_stores_inv (Mat.copyFrom_stores (Mat.zeros_of ha) hq)
    (Mat.zeros_of ha) e2
  obtain ⟨t', e5, ht⟩ := Mat.exec_transpose ht0 hfin
  rw [e5] at e3
  cases e3
  obtain ⟨u, e6⟩ := exec_eq_ok e4
  unfold Mat.mul at e6
  rw [Op.get_bind, if_pos (Or.inr (Or.inl (by rw [ht.rows_eq]; exact hrc)))] at e6
  cases e6

end

/-- A 2×2 matrix whose columns are apart: the identity. -/
example : ColumnsApart 2 (fun i j => if i = j then 1 else 0) := by
  intro j hj d
  have hj : j = 0 ∨ j = 1 := by omega
  have he : epsilon ℝ < 1 := by unfold epsilon; norm_num
  refine lt_of_lt_of_le he ?_
  rw [norm2, Real.one_le_sqrt]
  rcases hj with rfl | rfl
  · simp [Finset.sum_range_succ]
  · simp [Finset.sum_range_succ]
    positivity
example : factorsAt (Mat.of 2 2 fun i j => (.fin (tbl [[3, 1], [4, 2]] i j) : XQ)).qrDecomp 0 1 =
    .ok (.fin 1) := by decide +kernel
example : (Mat.of 2 3 fun i j => (.fin (tbl [[1, 2, 3], [4, 5, 6]] i j) : XQ)).qrDecomp ≠
    .ok (Mat.new, Mat.new) :=
  C28_not_square (Mat.of_is _ (by decide) (by decide) (by decide) (by decide)) (by decide) _

end Verif
