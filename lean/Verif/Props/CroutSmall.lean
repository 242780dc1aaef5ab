import Verif.Props.Factor

/-
The outcomes of `lu_crout` that C27 leaves open: size 1, and an element (0,0) within the tolerance.
-/

set_option linter.unusedSectionVars false
set_option linter.unusedSimpArgs false

namespace Verif
open Scalar Finset

variable {K : Type} [Field K] [LinearOrder K] [IsStrictOrderedRing K] [Elementary K]
variable {a : Mat (Ext K)} {n : Nat} {A : Nat → Nat → K}

/-- C27: a matrix of size 1 is factorised as 1 times itself. -/
theorem C27_one (ha : MatIs a 1 1 (fun i j => .fin (A i j))) :
    ∃ l u, a.luCrout = .ok (l, u) ∧ l.getElement 0 0 = .ok (.fin 1) ∧ u.getElement 0 0 = .ok (.fin (A 0 0)) := by
  obtain ⟨l0, el0, hl0⟩ := Mat.identity_fin (K := K) (Mat.zeros_of ha)
  have hu0 : MatIs (Mat.zeros 1 1 : Mat (Ext K)) 1 1 (fun _ _ => .fin 0) :=
    (Mat.zeros_of ha).congr fun _ _ _ _ => by simp
  obtain ⟨u1, eu1, hu1⟩ := crout_first_row ha hl0 hu0
  unfold Mat.luCrout
  simp only [Mat.isSquare_eq ha, Res.ok_bind, decide_true, Bool.not_true, Bool.false_eq_true, if_false,
    ha.rows_eq, Mat.init_of ha, el0]
  rw [show foldRange 0 1 = (foldFrom 0 1 :
    (Nat → (Mat (Ext K) × Mat (Ext K) × Ext K) → Res LinalgError _) → _) from rfl, foldFrom_succ]
  dsimp only
  rw [eu1]
  simp only [Res.ok_bind]
  rw [show foldRange (0 + 1) 1 = (foldFrom (0 + 1) 0 :
    (Nat → (Mat (Ext K) × Ext K) → Res LinalgError _) → _) from rfl, foldFrom_zero]
  simp only [Res.ok_bind, foldFrom_zero]
  refine ⟨_, _, rfl, ?_, ?_⟩
  · rw [hl0.get 0 0 (by omega) (by omega)]; simp
  · rw [hu1.get 0 0 (by omega) (by omega)]; simp

/-- C27: when the element (0,0) is zero a division by it fails. -/
theorem C27_zero (ha : MatIs a n n (fun i j => .fin (A i j))) (hn : 2 ≤ n) (h0 : A 0 0 = 0) :
    a.luCrout = .error (.err (.UtilsError (if A 1 0 = 0 then .Nan else .Inf))) := by
  obtain ⟨l0, el0, hl0⟩ := Mat.identity_fin (K := K) (Mat.zeros_of ha)
  have hu0 : MatIs (Mat.zeros n n : Mat (Ext K)) n n (fun _ _ => .fin 0) :=
    (Mat.zeros_of ha).congr fun _ _ _ _ => by simp
  obtain ⟨u1, eu1, hu1⟩ := crout_first_row ha hl0 hu0
  unfold Mat.luCrout
  simp only [Mat.isSquare_eq ha, Res.ok_bind, decide_true, Bool.not_true, Bool.false_eq_true, if_false,
    ha.rows_eq, Mat.init_of ha, el0]
  have hnm : ∃ m, n = m + 2 := ⟨n - 2, by omega⟩
  obtain ⟨m, rfl⟩ := hnm
  rw [show foldRange 0 (m + 2) = (foldFrom 0 (m + 2) :
    (Nat → (Mat (Ext K) × Mat (Ext K) × Ext K) → Res LinalgError _) → _) from rfl, foldFrom_succ]
  dsimp only
  rw [eu1]
  simp only [Res.ok_bind]
  rw [show foldRange (0 + 1) (m + 2) = (foldFrom (0 + 1) (m + 1) :
    (Nat → (Mat (Ext K) × Ext K) → Res LinalgError _) → _) from rfl, foldFrom_succ]
  have e1 : foldRange 0 (0 + 1) (fun k (sum : Ext K) => do
      .ok (sum +ᶠ ((← l0.getElement (0 + 1) k) *ᶠ (← u1.getElement k 0)))) (.fin 0) =
      (.ok (.fin 0) : Res LinalgError (Ext K)) := by
    simp only [foldRange, Nat.sub_zero, Nat.zero_add, foldFrom_succ, foldFrom_zero,
      hl0.get 1 0 (by omega) (by omega), hu1.get 0 0 (by omega) (by omega), Res.ok_bind]
    simp
  have hε : 0 < epsilon K := by unfold epsilon; positivity
  simp only [Ext.lit_zero, e1, Res.ok_bind, hu1.get 0 0 (by omega) (by omega), Ext.lit_zero, allclose_fin, if_true,
    sub_zero, h0, abs_zero, ha.get (0 + 1) 0 (by omega) (by omega), Ext.sub_fin]
  rw [if_neg (by simpa using hε.le)]
  have hx : exec l0 (Mat.setElement (0 + 1) 0 ((.fin (A (0 + 1) 0) : Ext K) /ᶠ .fin 0)) =
      .error (.err (.UtilsError (if A 1 0 = 0 then .Nan else .Inf))) := by
    refine exec_err (s' := l0) ?_
    rw [Mat.setElement_eq hl0.init (by rw [hl0.rows_eq]; omega) (by rw [hl0.cols_eq]; omega) (by have := hl0.cols_eq; have := hl0.cle; omega),
      if_neg (fun h => Ext.div_zero _ h)]
    by_cases h1 : A 1 0 = 0
    · have e : ((.fin (A (0 + 1) 0) : Ext K) /ᶠ .fin 0) = .nan := by
        show Ext.div (.fin (A (0 + 1) 0)) (.fin 0) = _
        simp [Ext.div, h1]
      rw [e, if_pos h1]; rfl
    · rw [if_neg h1]
      have e : ((.fin (A (0 + 1) 0) : Ext K) /ᶠ .fin 0) = .pinf ∨ ((.fin (A (0 + 1) 0) : Ext K) /ᶠ .fin 0) = .ninf := by
        show Ext.div (.fin (A (0 + 1) 0)) (.fin 0) = _ ∨ Ext.div (.fin (A (0 + 1) 0)) (.fin 0) = _
        simp only [Ext.div, Nat.zero_add]
        simp [h1, Ext.infOf]
        exact le_or_gt _ _
      rcases e with e | e <;> rw [e] <;> rfl
  simp only [hx]
  rfl

/-- C27: for size 2 `lu_crout` does factorise a matrix whose element (0,0) is not zero but within the tolerance. -/
theorem C27_two (ha : MatIs a 2 2 (fun i j => .fin (A i j))) (h0 : A 0 0 ≠ 0) (h1 : |A 0 0| ≤ epsilon K) :
    ∃ l u, a.luCrout = .ok (l, u) ∧ ∃ L U : Nat → Nat → K,
      MatIs l 2 2 (fun i j => .fin (L i j)) ∧ MatIs u 2 2 (fun i j => .fin (U i j)) ∧
      (∀ i, i < 2 → L i i = 1) ∧ L 0 1 = 0 ∧ U 1 0 = 0 ∧ toMatrix 2 2 L * toMatrix 2 2 U = toMatrix 2 2 A := by
  obtain ⟨l0, el0, hl0⟩ := Mat.identity_fin (K := K) (Mat.zeros_of ha)
  have hu0 : MatIs (Mat.zeros 2 2 : Mat (Ext K)) 2 2 (fun _ _ => .fin 0) :=
    (Mat.zeros_of ha).congr fun _ _ _ _ => by simp
  obtain ⟨u1, eu1, hu1⟩ := crout_first_row ha hl0 hu0
  obtain ⟨l1, el1, hl1⟩ := hl0.exec_put (A 1 0 / A 0 0) (show 1 < 2 by omega) (show 0 < 2 by omega)
  have e1 := hu1.get 0 0 (by omega) (by omega)
  have e2 := hu1.get 0 1 (by omega) (by omega)
  have e3 := hl0.get 1 0 (by omega) (by omega)
  have e4 := hl1.get 1 0 (by omega) (by omega)
  simp only [and_self, if_true, Nat.zero_ne_one, and_false, if_false, Nat.one_ne_zero] at e1 e2 e3 e4
  obtain ⟨u2, eu2, hu2⟩ := hu1.exec_put (A 1 1 - A 1 0 / A 0 0 * A 0 1) (show 1 < 2 by omega) (show 1 < 2 by omega)
  unfold Mat.luCrout
  simp only [Mat.isSquare_eq ha, Res.ok_bind, decide_true, Bool.not_true, Bool.false_eq_true, if_false,
    ha.rows_eq, Mat.init_of ha, el0]
  rw [show foldRange 0 2 = (foldFrom 0 2 :
    (Nat → (Mat (Ext K) × Mat (Ext K) × Ext K) → Res LinalgError _) → _) from rfl, foldFrom_succ]
  dsimp only
  rw [eu1]
  simp only [foldRange, Nat.sub_zero, Nat.sub_self, foldFrom_succ, foldFrom_zero, Res.ok_bind,
        ha.get 1 0 (by omega) (by omega), ha.get 1 1 (by omega) (by omega), Ext.lit_zero, Ext.sub_fin,
        sub_zero, allclose_fin, Nat.zero_add, Nat.reduceSub, Nat.reduceAdd, e1, e2, e3, e4, zero_mul, add_zero,
        decide_eq_true h1, Bool.not_true, Bool.false_eq_true, if_false,
        Ext.div_fin _ h0, el1, Ext.mul_fin, Ext.add_fin, zero_add, eu2]
  refine ⟨_, _, rfl, _, _, hl1, hu2, ?_, ?_, ?_, ?_⟩
  · intro i hi
    have : i = 0 ∨ i = 1 := by omega
    rcases this with rfl | rfl <;> simp
  · simp
  · simp
  · rw [toMatrix_mul, toMatrix_inj]
    intro i j hi hj
    have h1 : i = 0 ∨ i = 1 := by omega
    have h2 : j = 0 ∨ j = 1 := by omega
    rcases h1 with rfl | rfl <;> rcases h2 with rfl | rfl <;>
      simp [h0, Finset.sum_range_succ]

/-- Such a matrix: rows (1/20000, 1) and (1, 0). -/
example : ∃ l u, (Mat.of 2 2 fun i j => (.fin (tbl [[1 / 20000, 1], [1, 0]] i j) : XQ)).luCrout = .ok (l, u) ∧
    ∃ L U : Nat → Nat → ℚ,
      MatIs l 2 2 (fun i j => .fin (L i j)) ∧ MatIs u 2 2 (fun i j => .fin (U i j)) ∧
      (∀ i, i < 2 → L i i = 1) ∧ L 0 1 = 0 ∧ U 1 0 = 0 ∧
      toMatrix 2 2 L * toMatrix 2 2 U = toMatrix 2 2 (tbl [[1 / 20000, 1], [1, 0]]) :=
  C27_two (Mat.of_is _ (by decide) (by decide) (by decide) (by decide)) (by decide +kernel) (by decide +kernel)

example : (Mat.of 2 2 fun i j => (.fin (tbl [[0, 1], [1, 0]] i j) : XQ)).luCrout = .error (.err (.UtilsError .Inf)) :=
  C27_zero (A := tbl [[0, 1], [1, 0]]) (Mat.of_is _ (by decide) (by decide) (by decide) (by decide)) (by decide) (by decide +kernel)

/-- C27: from size 3 on the factors it does return can be wrong, because the sum is not reset between columns: element
(1,2) of the product is -1, while element (1,2) of the matrix is 0. -/
theorem C27_wrong_from_3 :
    ∃ (a : Mat XQ) (A : Nat → Nat → ℚ), MatIs a 3 3 (fun i j => .fin (A i j)) ∧
      (toMatrix 3 3 A).det ≠ 0 ∧ a.getElement 1 2 = .ok (.fin 0) ∧
      factorsAt a.luCrout 1 2 = .ok (.fin (-1)) := by
  refine ⟨Mat.of 3 3 fun i j => .fin (tbl [[1 / 10000, 1, 0], [1 / 10000, 10001 / 10000, 0], [0, 0, 1]] i j),
    tbl [[1 / 10000, 1, 0], [1 / 10000, 10001 / 10000, 0], [0, 0, 1]],
    Mat.of_is _ (by decide) (by decide) (by decide) (by decide), ?_, by decide +kernel,
    by decide +kernel⟩
  rw [Matrix.det_fin_three]
  decide +kernel

end Verif
