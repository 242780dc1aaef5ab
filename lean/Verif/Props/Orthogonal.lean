import Verif.Props.Qr

/-
`is_orthogonal` and `is_so_n` (C62) in exact arithmetic over an ordered field.
-/

set_option linter.unusedSectionVars false
set_option linter.unusedSimpArgs false

namespace Verif
open Scalar Finset

variable {K : Type} [Field K] [LinearOrder K] [IsStrictOrderedRing K] [Elementary K]
variable {a : Mat (Ext K)} {n : Nat} {A : Nat → Nat → K}

/-- `A * Aᵀ` is the identity within the tolerance, entry by entry. -/
def NearOrthogonal (n : Nat) (A : Nat → Nat → K) : Prop :=
  ∀ i j : Fin n, |(toMatrix n n A * (toMatrix n n A).transpose) i j - (1 : Matrix (Fin n) (Fin n) K) i j| ≤
    epsilon K

theorem mulTranspose_run (ha : MatIs a n n (fun i j => .fin (A i j))) :
    ∃ b, a.mulTransposeIsIdentity n = .ok b ∧ (b = true ↔ NearOrthogonal n A) := by
  obtain ⟨t0, e0, h0⟩ := Mat.duplicate_ok ha (fun i j _ _ => Ext.finite_fin (A i j))
  obtain ⟨t, e1, ht⟩ := Mat.exec_transpose h0 (fun i j _ _ => Ext.finite_fin (A i j))
  obtain ⟨d, e2, hd⟩ := Mat.identity_fin (Mat.zeros_of ha)
  obtain ⟨r, e3, hr⟩ : ∃ r, a.mulNew t = .ok r ∧
      MatIs r n n (fun i j => .fin (∑ k ∈ range n, A i k * A j k)) := by
    obtain ⟨r, e, hr⟩ := Mat.mul_fin ha ht (Mat.zeros_of ha)
    exact ⟨r, by rw [Mat.mulNew_eq ha ht, e], hr⟩
  obtain ⟨b, e4, hb⟩ := C19_mat hr hd (fun i j _ _ => Ext.finite_fin _) (fun i j _ _ => Ext.finite_fin _)
    (EPSILON : Ext K)
  refine ⟨b, ?_, hb.trans ?_⟩
  · unfold Mat.mulTransposeIsIdentity
    simp only [e0, e1, Mat.init_of ha, e2, e3, e4, Res.ok_bind]
    cases b <;> rfl
  · have hclose : ∀ i j : Nat, Close (Ext.fin (∑ k ∈ range n, A i k * A j k) : Ext K)
        (.fin (if i = j then 1 else 0)) EPSILON ↔
        |∑ k ∈ range n, A i k * A j k - if i = j then 1 else 0| ≤ epsilon K := by
      intro i j
      have h := allclose_fin (∑ k ∈ range n, A i k * A j k) (if i = j then (1 : K) else 0)
      rw [allcloseL_eq (Ext.finite_fin _) (Ext.finite_fin _)] at h
      exact decide_eq_decide.mp (Except.ok.inj h)
    have hent : ∀ i j : Fin n, (toMatrix n n A * (toMatrix n n A).transpose) i j -
        (1 : Matrix (Fin n) (Fin n) K) i j =
        ∑ k ∈ range n, A i k * A j k - if (i : Nat) = j then 1 else 0 := by
      intro i j
      rw [toMatrix_transpose, toMatrix_mul, Matrix.one_apply]
      simp [toMatrix, Fin.ext_iff]
    constructor
    · intro h i j
      rw [hent]
      exact (hclose i j).mp (h.2.2 i j i.2 j.2)
    · intro h
      refine ⟨rfl, rfl, fun i j hi hj => (hclose i j).mpr ?_⟩
      rw [← hent ⟨i, hi⟩ ⟨j, hj⟩]
      exact h _ _

/-- C62: `is_orthogonal` fails only with `Singular`; otherwise it answers `true` exactly when the
absolute value of the determinant is near 1 and `A * Aᵀ` is near the identity. -/
theorem C62_orthogonal (ha : MatIs a n n (fun i j => .fin (A i j))) :
    (a.isOrthogonal = .error (.err .Singular) ∧ a.det = .error (.err .Singular)) ∨
    ∃ b, a.isOrthogonal = .ok b ∧
      (b = true ↔ |(|(toMatrix n n A).det|) - 1| ≤ epsilon K ∧ NearOrthogonal n A) ∧
      ∃ d, a.det = .ok (.fin d) ∧ |d| = |(toMatrix n n A).det| := by
  obtain ⟨b, e, hb⟩ := mulTranspose_run ha
  unfold Mat.isOrthogonal
  rcases C25_det_abs ha with h | ⟨d, h, hd⟩
  · left
    rw [h]
    exact ⟨rfl, rfl⟩
  · right
    have habs : Scalar.abs (.fin d : Ext K) = .fin |d| := by
      rw [Ext.abs_fin, abs_eq_max_neg]
      split
      · rw [max_eq_left (by linarith)]
      · rw [max_eq_right (by linarith)]
    rw [h, Res.ok_bind, habs, hd, Ext.lit_one]
    dsimp only
    rw [allclose_fin, Res.ok_bind, ha.rows_eq]
    by_cases hc : |(|(toMatrix n n A).det|) - 1| ≤ epsilon K
    · refine ⟨b, ?_, by simp [hc, hb], d, rfl, hd⟩
      rw [decide_eq_true hc]
      exact e
    · refine ⟨false, ?_, by simp [hc], d, rfl, hd⟩
      rw [decide_eq_false hc]
      rfl

/-- C62: up to size 3 `is_so_n` answers `true` exactly when the determinant is near 1 and `A * Aᵀ` is
near the identity. -/
theorem C62_so_n (ha : MatIs a n n (fun i j => .fin (A i j))) (h3 : n ≤ 3) :
    (a.isSoN = .error (.err .Singular) ∧ a.det = .error (.err .Singular)) ∨
    ∃ b, a.isSoN = .ok b ∧
      (b = true ↔ |(toMatrix n n A).det - 1| ≤ epsilon K ∧ NearOrthogonal n A) ∧
      a.det = .ok (.fin (toMatrix n n A).det) := by
  obtain ⟨b, e, hb⟩ := mulTranspose_run ha
  unfold Mat.isSoN
  rcases C25_det_small ha h3 with h | h
  · left
    rw [h]
    exact ⟨rfl, rfl⟩
  · right
    rw [h, Res.ok_bind, Ext.lit_one, allclose_fin, Res.ok_bind, ha.rows_eq]
    by_cases hc : |(toMatrix n n A).det - 1| ≤ epsilon K
    · refine ⟨b, ?_, by simp [hc, hb], rfl⟩
      rw [decide_eq_true hc]
      exact e
    · refine ⟨false, ?_, by simp [hc], rfl⟩
      rw [decide_eq_false hc]
      rfl

/-- C62: at every size, a `true` from `is_so_n` means that `det` gave a value near 1 and `A * Aᵀ` is
near the identity; and these two make it answer `true`. -/
theorem C62_so_n_any (ha : MatIs a n n (fun i j => .fin (A i j))) :
    a.isSoN = .ok true ↔
      (∃ d, a.det = .ok (.fin d) ∧ |d - 1| ≤ epsilon K) ∧ NearOrthogonal n A := by
  obtain ⟨b, e, hb⟩ := mulTranspose_run ha
  unfold Mat.isSoN
  rcases C25_det_abs ha with h | ⟨d, h, _⟩
  · rw [h]
    constructor
    · intro h'; cases h'
    · rintro ⟨⟨d, h', _⟩, _⟩; cases h'
  · rw [h, Res.ok_bind, Ext.lit_one, allclose_fin, Res.ok_bind, ha.rows_eq]
    by_cases hc : |d - 1| ≤ epsilon K
    · rw [decide_eq_true hc]
      simp only [Bool.not_true, Bool.false_eq_true, if_false]
      rw [e]
      constructor
      · intro h'
        exact ⟨⟨d, rfl, hc⟩, hb.mp (Except.ok.inj h')⟩
      · intro h'
        rw [hb.mpr h'.2]
    · rw [decide_eq_false hc]
      constructor
      · intro h'; simp at h'
      · rintro ⟨⟨d', h', hd'⟩, _⟩
        cases h'
        exact absurd hd' hc

/-- C62: neither test accepts a matrix that is not square. -/
theorem C62_not_square {F : Type} [Scalar F] {a : Mat F} {r c : Nat} {f : Nat → Nat → F}
    (ha : MatIs a r c f) (hrc : r ≠ c) :
    a.isOrthogonal = .error (.err .NotSquare) ∧ a.isSoN = .error (.err .NotSquare) := by
  unfold Mat.isOrthogonal Mat.isSoN Mat.det
  simp [Mat.isSquare_eq ha, hrc]

/-- A rotation by the angle with cosine 3/5. -/
def exTurn : Mat XQ := Mat.of 2 2 fun i j => .fin (tbl [[3 / 5, -4 / 5], [4 / 5, 3 / 5]] i j)

example : exTurn.isOrthogonal = .ok true ∧ exTurn.isSoN = .ok true := by
  constructor <;> decide +kernel
/-- A reflection. -/
example : (Mat.of 2 2 fun i j => (.fin (tbl [[3 / 5, 4 / 5], [4 / 5, -3 / 5]] i j) : XQ)).isOrthogonal =
      .ok true ∧
    (Mat.of 2 2 fun i j => (.fin (tbl [[3 / 5, 4 / 5], [4 / 5, -3 / 5]] i j) : XQ)).isSoN = .ok false := by
  constructor <;> decide +kernel

/-- C62: a quarter turn is reported as an error, because `det` fails on it. -/
theorem C62_quarter_turn :
    NearOrthogonal 2 (tbl [[0, 1], [-1, 0]] : Nat → Nat → ℚ) ∧
    exRot.isOrthogonal = .error (.err .Singular) ∧ exRot.isSoN = .error (.err .Singular) := by
  refine ⟨?_, by decide +kernel, by decide +kernel⟩
  unfold NearOrthogonal
  decide +kernel

/-- C62: at size 4 a rotation can be rejected by `is_so_n`, because of the sign of `det`. -/
theorem C62_rejects_rotation :
    NearOrthogonal 4
      (tbl [[0, 1, 0, 0], [1, 0, 0, 0], [0, 0, 0, 1], [0, 0, 1, 0]] : Nat → Nat → ℚ) ∧
    (toMatrix 4 4
      (tbl [[0, 1, 0, 0], [1, 0, 0, 0], [0, 0, 0, 1], [0, 0, 1, 0]] : Nat → Nat → ℚ)).det = 1 ∧
    exSwap.isSoN = .ok false := by
  refine ⟨?_, C25_wrong_sign.2.1, by decide +kernel⟩
  unfold NearOrthogonal
  decide +kernel

end Verif
