import Mathlib.LinearAlgebra.Matrix.Determinant.Basic
import Verif.Props.QuatAlgebra
import Verif.Props.Factor
import Verif.Props.Qr

/-
Quaternions as rotations (C36, C37).
-/

set_option linter.unusedSectionVars false
set_option linter.unusedSimpArgs false

namespace Verif
open Scalar Finset

/-- The pure quaternion with a given vector part. -/
noncomputable def pureQ (u : Fin 3 → ℝ) : Quaternion ℝ := mkQ 0 (u 0) (u 1) (u 2)

/-- The rotated vector: the vector part of `q u q*`. -/
noncomputable def rotBy (q : Quaternion ℝ) (u : Fin 3 → ℝ) : Fin 3 → ℝ :=
  ![(q * pureQ u * star q).imI, (q * pureQ u * star q).imJ, (q * pureQ u * star q).imK]

theorem rotBy_pure (q : Quaternion ℝ) (u : Fin 3 → ℝ) : pureQ (rotBy q u) = q * pureQ u * star q := by
  apply Quaternion.ext
  · simp [pureQ, Quaternion.re_mul]; ring
  · simp [pureQ, rotBy]
  · simp [pureQ, rotBy]
  · simp [pureQ, rotBy]

theorem pureQ_inj {u v : Fin 3 → ℝ} (h : pureQ u = pureQ v) : u = v := by
  have h1 := congrArg QuaternionAlgebra.imI h
  have h2 := congrArg QuaternionAlgebra.imJ h
  have h3 := congrArg QuaternionAlgebra.imK h
  funext i
  fin_cases i
  · exact h1
  · exact h2
  · exact h3

theorem rotBy_mul (q p : Quaternion ℝ) (u : Fin 3 → ℝ) : rotBy (q * p) u = rotBy q (rotBy p u) := by
  apply pureQ_inj
  rw [rotBy_pure, rotBy_pure, rotBy_pure, star_mul]
  simp only [mul_assoc]

/-- What `convert_to_dcm` computes. -/
def dcmOf (q : Quaternion ℝ) : Nat → Nat → ℝ :=
  tbl [[q.re * q.re + q.imI * q.imI - q.imJ * q.imJ - q.imK * q.imK,
      2 * (q.imI * q.imJ - q.re * q.imK), 2 * (q.imI * q.imK + q.re * q.imJ)],
    [2 * (q.imI * q.imJ + q.re * q.imK), 1 - 2 * (q.imI * q.imI + q.imK * q.imK),
      2 * (q.imJ * q.imK - q.re * q.imI)],
    [2 * (q.imI * q.imK - q.re * q.imJ), 2 * (q.re * q.imI + q.imJ * q.imK),
      1 - 2 * (q.imI * q.imI + q.imJ * q.imJ)]]

section
variable {a b : Vec XR} {q p : Quaternion ℝ} {u : Fin 3 → ℝ}

theorem Mat.zeros_fin {K : Type} [Field K] [LinearOrder K] [Elementary K] {r c : Nat} (h1 : 1 ≤ r)
    (h2 : r ≤ 4) (h3 : 1 ≤ c) (h4 : c ≤ 4) :
    MatIs (Mat.zeros r c : Mat (Ext K)) r c (fun _ _ => .fin 0) :=
  (Mat.zeros_is h1 h2 h3 h4).congr fun _ _ _ _ => Ext.lit_zero

theorem dcm_run (ha : QuatIs a q) :
    ∃ m, Quat.convertToDcm a = .ok m ∧ MatIs m 3 3 (fun i j => .fin (dcmOf q i j)) := by
  have h0 := Mat.zeros_fin (K := ℝ) (r := 3) (c := 3) (by omega) (by omega) (by omega) (by omega)
  have l1 : (lit 1 : XR) = .fin 1 := Ext.lit_one
  have l2 : (lit 2 : XR) = .fin 2 := by rw [Ext.lit_eq]; norm_num
  unfold Quat.convertToDcm
  simp only [Mat.init_new (F := XR) (r := 3) (c := 3) (by omega) (by omega) (by omega) (by omega),
    Res.ok_bind, Quat.getQw_eq ha, Quat.getQx_eq ha, Quat.getQy_eq ha, Quat.getQz_eq ha, l1, l2,
    Ext.mul_fin, Ext.add_fin, Ext.sub_fin]
  obtain ⟨m1, e1, h1⟩ := h0.exec_put (i := 0) (j := 0)
    (q.re * q.re + q.imI * q.imI - q.imJ * q.imJ - q.imK * q.imK) (by omega) (by omega)
  rw [e1, Res.ok_bind]
  obtain ⟨m2, e2, h2⟩ := h1.exec_put (i := 0) (j := 1)
    (2 * (q.imI * q.imJ - q.re * q.imK)) (by omega) (by omega)
  rw [e2, Res.ok_bind]
  obtain ⟨m3, e3, h3⟩ := h2.exec_put (i := 0) (j := 2)
    (2 * (q.imI * q.imK + q.re * q.imJ)) (by omega) (by omega)
  rw [e3, Res.ok_bind]
  obtain ⟨m4, e4, h4⟩ := h3.exec_put (i := 1) (j := 0)
    (2 * (q.imI * q.imJ + q.re * q.imK)) (by omega) (by omega)
  rw [e4, Res.ok_bind]
  obtain ⟨m5, e5, h5⟩ := h4.exec_put (i := 1) (j := 1)
    (1 - 2 * (q.imI * q.imI + q.imK * q.imK)) (by omega) (by omega)
  rw [e5, Res.ok_bind]
  obtain ⟨m6, e6, h6⟩ := h5.exec_put (i := 1) (j := 2)
    (2 * (q.imJ * q.imK - q.re * q.imI)) (by omega) (by omega)
  rw [e6, Res.ok_bind]
  obtain ⟨m7, e7, h7⟩ := h6.exec_put (i := 2) (j := 0)
    (2 * (q.imI * q.imK - q.re * q.imJ)) (by omega) (by omega)
  rw [e7, Res.ok_bind]
  obtain ⟨m8, e8, h8⟩ := h7.exec_put (i := 2) (j := 1)
    (2 * (q.re * q.imI + q.imJ * q.imK)) (by omega) (by omega)
  rw [e8, Res.ok_bind]
  obtain ⟨m9, e9, h9⟩ := h8.exec_put (i := 2) (j := 2)
    (1 - 2 * (q.imI * q.imI + q.imJ * q.imJ)) (by omega) (by omega)
  refine ⟨m9, e9, h9.congr fun i j hi hj => ?_⟩
  rcases i with _ | _ | _ | i <;> [skip; skip; skip; omega] <;>
    rcases j with _ | _ | _ | j <;> first | omega | rfl

theorem unit_sum (h : Quaternion.normSq q = 1) :
    q.re * q.re + q.imI * q.imI + q.imJ * q.imJ + q.imK * q.imK = 1 := by
  rw [Quaternion.normSq_def'] at h
  linarith [h]

theorem dcmOf_mulVec (h : Quaternion.normSq q = 1) (u : Fin 3 → ℝ) :
    (toMatrix 3 3 (dcmOf q)).mulVec u = rotBy q u := by
  have hs := unit_sum h
  funext i
  fin_cases i
  · simp [toMatrix, dcmOf, tbl, Matrix.mulVec, dotProduct, Fin.sum_univ_three, rotBy, pureQ,
      Quaternion.imI_mul, Quaternion.re_mul, Quaternion.imJ_mul, Quaternion.imK_mul]
    ring
  · simp [toMatrix, dcmOf, tbl, Matrix.mulVec, dotProduct, Fin.sum_univ_three, rotBy, pureQ,
      Quaternion.imI_mul, Quaternion.re_mul, Quaternion.imJ_mul, Quaternion.imK_mul]
    linear_combination (- u 1) * hs
  · simp [toMatrix, dcmOf, tbl, Matrix.mulVec, dotProduct, Fin.sum_univ_three, rotBy, pureQ,
      Quaternion.imI_mul, Quaternion.re_mul, Quaternion.imJ_mul, Quaternion.imK_mul]
    linear_combination (- u 2) * hs

theorem matrix_eq_of_mulVec {A B : Matrix (Fin 3) (Fin 3) ℝ} (h : ∀ u, A.mulVec u = B.mulVec u) :
    A = B := by
  ext i j
  have := congrFun (h (Pi.single j 1)) i
  simpa using this

theorem dcmOf_mul (hq : Quaternion.normSq q = 1) (hp : Quaternion.normSq p = 1) :
    toMatrix 3 3 (dcmOf (q * p)) = toMatrix 3 3 (dcmOf q) * toMatrix 3 3 (dcmOf p) := by
  apply matrix_eq_of_mulVec
  intro u
  rw [dcmOf_mulVec (by rw [map_mul, hq, hp, one_mul]), ← Matrix.mulVec_mulVec, dcmOf_mulVec hp,
    dcmOf_mulVec hq, rotBy_mul]

theorem dcmOf_orthogonal (h : Quaternion.normSq q = 1) :
    toMatrix 3 3 (dcmOf q) * (toMatrix 3 3 (dcmOf q)).transpose = 1 := by
  have e : (toMatrix 3 3 (dcmOf q)).transpose = toMatrix 3 3 (dcmOf (star q)) := by
    ext i j
    fin_cases i <;> fin_cases j <;> simp [toMatrix, dcmOf, tbl] <;> ring
  have hs : Quaternion.normSq (star q) = 1 := by rw [Quaternion.normSq_star, h]
  rw [e, ← dcmOf_mul h hs, Quaternion.self_mul_star, h]
  ext i j
  fin_cases i <;> fin_cases j <;>
    simp [toMatrix, dcmOf, tbl, Quaternion.re_one, Quaternion.imI_one, Quaternion.imJ_one,
      Quaternion.imK_one]

theorem dcmOf_det (h : Quaternion.normSq q = 1) : (toMatrix 3 3 (dcmOf q)).det = 1 := by
  have hs := unit_sum h
  rw [Matrix.det_fin_three]
  simp [toMatrix, dcmOf, tbl]
  linear_combination (4 * q.imI ^ 2 * q.re ^ 2 + 1 + 4 * q.imI ^ 2 * (q.imI ^ 2 + q.imJ ^ 2 + q.imK ^ 2)
    + 2 * q.imJ ^ 2 + 2 * q.imK ^ 2) * hs

/-- C36: the matrix of a unit quaternion acts as `u ↦ q u q*`, is orthogonal and has determinant 1. -/
theorem C36_dcm (ha : QuatIs a q) (hq : Quaternion.normSq q = 1) :
    ∃ (m : Mat XR) (D : Nat → Nat → ℝ), Quat.convertToDcm a = .ok m ∧
      MatIs m 3 3 (fun i j => .fin (D i j)) ∧
      (∀ u, pureQ ((toMatrix 3 3 D).mulVec u) = q * pureQ u * star q) ∧
      toMatrix 3 3 D * (toMatrix 3 3 D).transpose = 1 ∧ (toMatrix 3 3 D).det = 1 := by
  obtain ⟨m, e, hm⟩ := dcm_run ha
  exact ⟨m, _, e, hm, fun u => by rw [dcmOf_mulVec hq, rotBy_pure], dcmOf_orthogonal hq, dcmOf_det hq⟩

/-- C36: the matrix of a product is the product of the matrices. -/
theorem C36_product (ha : QuatIs a q) (hb : QuatIs b p) (hq : Quaternion.normSq q = 1)
    (hp : Quaternion.normSq p = 1) :
    ∃ (ab : Vec XR) (m ma mb mm : Mat XR) (D : Nat → Nat → ℝ), Quat.mulNew a b = .ok ab ∧
      Quat.convertToDcm ab = .ok m ∧ Quat.convertToDcm a = .ok ma ∧ Quat.convertToDcm b = .ok mb ∧
      ma.mulNew mb = .ok mm ∧ MatIs m 3 3 (fun i j => .fin (D i j)) ∧
      MatIs mm 3 3 (fun i j => .fin (D i j)) := by
  obtain ⟨ab, e1, h1⟩ := C34_hamilton ha hb
  obtain ⟨m, e2, h2⟩ := dcm_run h1
  obtain ⟨ma, e3, h3⟩ := dcm_run ha
  obtain ⟨mb, e4, h4⟩ := dcm_run hb
  have hz := Mat.zeros_is (F := XR) (r := 3) (c := 3) (by omega) (by omega) (by omega) (by omega)
  obtain ⟨mm, e5, h5⟩ := Mat.mul_fin h3 h4 hz
  refine ⟨ab, m, ma, mb, mm, dcmOf (q * p), e1, e2, e3, e4, ?_, h2, h5.congr fun i j hi hj => ?_⟩
  · rw [Mat.mulNew_eq h3 h4, e5]
  · have := dcmOf_mul hq hp
    rw [toMatrix_mul, toMatrix_inj] at this
    rw [this i j hi hj]

/-- C36: opposite quaternions, unit or not, have the same matrix. -/
theorem C36_opposite (ha : QuatIs a q) (hb : QuatIs b (-q)) :
    ∃ m, Quat.convertToDcm a = .ok m ∧ Quat.convertToDcm b = .ok m := by
  obtain ⟨m, e, _⟩ := dcm_run ha
  refine ⟨m, e, ?_⟩
  rw [← e]
  have l1 : (lit 1 : XR) = .fin 1 := Ext.lit_one
  have l2 : (lit 2 : XR) = .fin 2 := by rw [Ext.lit_eq]; norm_num
  unfold Quat.convertToDcm
  simp only [Mat.init_new (F := XR) (r := 3) (c := 3) (by omega) (by omega) (by omega) (by omega),
    Res.ok_bind, Quat.getQw_eq ha, Quat.getQx_eq ha, Quat.getQy_eq ha, Quat.getQz_eq ha,
    Quat.getQw_eq hb, Quat.getQx_eq hb, Quat.getQy_eq hb, Quat.getQz_eq hb, l1, l2,
    Ext.mul_fin, Ext.add_fin, Ext.sub_fin, Quaternion.re_neg, Quaternion.imI_neg, Quaternion.imJ_neg,
    Quaternion.imK_neg, neg_mul_neg]

/-- C36: distinct unit quaternions with the same matrix are opposite. -/
theorem C36_faithful {m : Mat XR} (ha : QuatIs a q) (hb : QuatIs b p) (hq : Quaternion.normSq q = 1)
    (hp : Quaternion.normSq p = 1) (e1 : Quat.convertToDcm a = .ok m)
    (e2 : Quat.convertToDcm b = .ok m) : p = q ∨ p = -q := by
  obtain ⟨m1, e1', h1⟩ := dcm_run ha
  obtain ⟨m2, e2', h2⟩ := dcm_run hb
  obtain rfl : m1 = m := by rw [e1'] at e1; exact Except.ok.inj e1
  obtain rfl : m2 = m1 := by rw [e2'] at e2; exact Except.ok.inj e2
  have hs := unit_sum hq
  have hs' := unit_sum hp
  have g : ∀ i j, i < 3 → j < 3 → dcmOf q i j = dcmOf p i j := fun i j hi hj => by
    have := (h1.get i j hi hj).symm.trans (h2.get i j hi hj)
    simpa using this
  have g00 := g 0 0 (by omega) (by omega)
  have g01 := g 0 1 (by omega) (by omega)
  have g02 := g 0 2 (by omega) (by omega)
  have g10 := g 1 0 (by omega) (by omega)
  have g11 := g 1 1 (by omega) (by omega)
  have g12 := g 1 2 (by omega) (by omega)
  have g20 := g 2 0 (by omega) (by omega)
  have g21 := g 2 1 (by omega) (by omega)
  have g22 := g 2 2 (by omega) (by omega)
  simp [dcmOf, tbl] at g00 g01 g02 g10 g11 g12 g20 g21 g22
  -- the products of the components are the same
  set c := q.re * p.re + q.imI * p.imI + q.imJ * p.imJ + q.imK * p.imK with hc
  have hww : p.re * p.re = q.re * q.re := by linarith
  have hwx : p.re * p.imI = q.re * q.imI := by linarith
  have hwy : p.re * p.imJ = q.re * q.imJ := by linarith
  have hwz : p.re * p.imK = q.re * q.imK := by linarith
  have hxx : p.imI * p.imI = q.imI * q.imI := by linarith
  have hxy : p.imI * p.imJ = q.imI * q.imJ := by linarith
  have hxz : p.imI * p.imK = q.imI * q.imK := by linarith
  have hyy : p.imJ * p.imJ = q.imJ * q.imJ := by linarith
  have hyz : p.imJ * p.imK = q.imJ * q.imK := by linarith
  have hzz : p.imK * p.imK = q.imK * q.imK := by linarith
  have k0 : c * p.re = q.re := by
    rw [hc]; linear_combination q.re * hww + q.imI * hwx + q.imJ * hwy + q.imK * hwz + q.re * hs
  have k1 : c * p.imI = q.imI := by
    rw [hc]; linear_combination q.re * hwx + q.imI * hxx + q.imJ * hxy + q.imK * hxz + q.imI * hs
  have k2 : c * p.imJ = q.imJ := by
    rw [hc]; linear_combination q.re * hwy + q.imI * hxy + q.imJ * hyy + q.imK * hyz + q.imJ * hs
  have k3 : c * p.imK = q.imK := by
    rw [hc]; linear_combination q.re * hwz + q.imI * hxz + q.imJ * hyz + q.imK * hzz + q.imK * hs
  have hcc : c * c = 1 := by
    have : c * c * (p.re * p.re + p.imI * p.imI + p.imJ * p.imJ + p.imK * p.imK) = 1 := by
      refine Eq.trans ?_ hs
      rw [← k0, ← k1, ← k2, ← k3]; ring
    rwa [hs', mul_one] at this
  rcases mul_self_eq_one_iff.mp hcc with h | h
  · left
    rw [h, one_mul] at k0 k1 k2 k3
    exact Quaternion.ext _ _ k0 k1 k2 k3
  · right
    rw [h] at k0 k1 k2 k3
    refine Quaternion.ext _ _ ?_ ?_ ?_ ?_
    · rw [Quaternion.re_neg]; linarith
    · rw [Quaternion.imI_neg]; linarith
    · rw [Quaternion.imJ_neg]; linarith
    · rw [Quaternion.imK_neg]; linarith

/-! ### C37 -/

theorem Res.bind_ok_cases {ε α β : Type} {x : Res ε α} {f : α → Res ε β} {b : β}
    (h : (x >>= f) = .ok b) : ∃ a, x = .ok a ∧ f a = .ok b := by
  rcases x with e | a
  · cases h
  · exact ⟨a, rfl, h⟩

theorem dcm_sized {F : Type} [Scalar F] {a : Vec F} {m : Mat F} (h : Quat.convertToDcm a = .ok m) :
    ∃ g, MatIs m 3 3 g := by
  have h0 := Mat.zeros_is (F := F) (r := 3) (c := 3) (by omega) (by omega) (by omega) (by omega)
  unfold Quat.convertToDcm at h
  rw [Mat.init_new (F := F) (r := 3) (c := 3) (by omega) (by omega) (by omega) (by omega),
    Res.ok_bind] at h
  obtain ⟨w, _, h⟩ := Res.bind_ok_cases h
  obtain ⟨x, _, h⟩ := Res.bind_ok_cases h
  obtain ⟨y, _, h⟩ := Res.bind_ok_cases h
  obtain ⟨z, _, h⟩ := Res.bind_ok_cases h
  obtain ⟨m1, e1, h⟩ := Res.bind_ok_cases h
  have h1 := (h0.exec_set_inv (by omega) (by omega) e1).2
  obtain ⟨m2, e2, h⟩ := Res.bind_ok_cases h
  have h2 := (h1.exec_set_inv (by omega) (by omega) e2).2
  obtain ⟨m3, e3, h⟩ := Res.bind_ok_cases h
  have h3 := (h2.exec_set_inv (by omega) (by omega) e3).2
  obtain ⟨m4, e4, h⟩ := Res.bind_ok_cases h
  have h4 := (h3.exec_set_inv (by omega) (by omega) e4).2
  obtain ⟨m5, e5, h⟩ := Res.bind_ok_cases h
  have h5 := (h4.exec_set_inv (by omega) (by omega) e5).2
  obtain ⟨m6, e6, h⟩ := Res.bind_ok_cases h
  have h6 := (h5.exec_set_inv (by omega) (by omega) e6).2
  obtain ⟨m7, e7, h⟩ := Res.bind_ok_cases h
  have h7 := (h6.exec_set_inv (by omega) (by omega) e7).2
  obtain ⟨m8, e8, h⟩ := Res.bind_ok_cases h
  have h8 := (h7.exec_set_inv (by omega) (by omega) e8).2
  exact ⟨_, (h8.exec_set_inv (by omega) (by omega) h).2⟩

/-- C37: `rotate_in_place` and `rotate` succeed together with the same vector, or fail with the same
error, whatever the arithmetic. -/
theorem C37_agree {F : Type} [Scalar F] {a v : Vec F} {n : Nat} {f : Nat → F} (hv : VecIs v n f)
    (hf : ∀ i, i < n → Finite (f i)) :
    (∀ e, Quat.rotate a v = .error e ↔ (Quat.rotateInPlace a v).1 = .error e) ∧
    (∀ r, Quat.rotate a v = .ok r → (Quat.rotateInPlace a v).1 = .ok () ∧
      ∃ g, VecIs r 3 g ∧ VecIs (Quat.rotateInPlace a v).2 3 g) := by
  unfold Quat.rotate Quat.rotateInPlace
  simp only [Op.get_bind, hv.rows, Op.liftOk_bind, Res.ok_bind]
  by_cases hn : n = 3
  · subst hn
    simp only [ne_eq, not_true, if_false]
    rcases hd : Quat.convertToDcm a with e | d
    · simp [Op.liftErr_bind, Res.error_bind]
    · obtain ⟨g, hg⟩ := dcm_sized hd
      obtain ⟨c, ec, hc⟩ := Vec.convertToMatrix_ok hv hf
      simp only [Op.liftOk_bind, Res.ok_bind, ec]
      rcases hm : d.mulNew c with e | m
      · simp [Op.liftErr_bind, Res.error_bind]
      · have hm' := (Mat.mulNew_inv hg hc hm).2
        have hz := Vec.zeros_is (F := F) (n := 3) (by omega) (by omega)
        simp only [Op.liftOk_bind, Res.ok_bind, Mat.colToVector, hm'.rows_eq,
          Vec.init_new (F := F) (n := 3) (by omega) (by omega)]
        have s1 := Mat.getCol_stores hm' hz (show 0 < 1 by omega)
        have s2 := Mat.getCol_stores hm' hv (show 0 < 1 by omega)
        rcases s1.cases with ⟨h1, e1⟩ | ⟨k, hk, hb, hn, e1⟩
        · rw [exec_ok e1, s2.ok h1]
          simp only [reduceCtorEq, implies_true, Except.ok.injEq, true_and, forall_eq']
          exact ⟨_, hz.overwrite _, hv.overwrite _⟩
        · rw [exec_err e1, s2.2 k hk hb hn]
          simp
  · simp [hn, fail, Op.fail]

/-- What `rotate` returns. -/
theorem rotate_run {v : Vec XR} (ha : QuatIs a q) (hq : Quaternion.normSq q = 1) (hv : Vec3Is v u) :
    ∃ r, Quat.rotate a v = .ok r ∧ Vec3Is r (rotBy q u) := by
  obtain ⟨m, e, hm⟩ := dcm_run ha
  have hv' : VecIs v 3 (fun i => .fin (seq3 (u 0) (u 1) (u 2) i)) :=
    VecIs.congr hv (forall_lt_three.mpr ⟨rfl, rfl, rfl⟩)
  obtain ⟨c, e2, hc⟩ := Vec.convertToMatrix_ok hv' (fun _ _ => Ext.finite_fin _)
  obtain ⟨w, e3, hw⟩ := Mat.mul_fin hm hc (Mat.zeros_is (F := XR) (r := 3) (c := 1) (by omega)
    (by omega) (by omega) (by omega))
  obtain ⟨r, e4, hr⟩ := Mat.colToVector_ok hw (show 0 < 1 by omega) (fun _ _ => Ext.finite_fin _)
  refine ⟨r, ?_, VecIs.congr hr ?_⟩
  · unfold Quat.rotate
    rw [hv.rows, Res.ok_bind]
    simp only [ne_eq, not_true, if_false, e, e2, Res.ok_bind, Mat.mulNew_eq hm hc, e3, e4]
  · have k : ∀ i : Fin 3, ∑ t ∈ range 3, dcmOf q i t * seq3 (u 0) (u 1) (u 2) t = rotBy q u i := by
      intro i
      rw [← dcmOf_mulVec hq, Matrix.mulVec, dotProduct, Fin.sum_univ_three, Finset.sum_range_succ,
        Finset.sum_range_succ, Finset.sum_range_succ, Finset.sum_range_zero, zero_add]
      rfl
    exact forall_lt_three.mpr ⟨congrArg _ (k 0), congrArg _ (k 1), congrArg _ (k 2)⟩

/-- C37: rotating a vector by a unit quaternion gives `q u q*`. -/
theorem C37_rotate {v : Vec XR} (ha : QuatIs a q) (hq : Quaternion.normSq q = 1) (hv : Vec3Is v u) :
    ∃ (r r' : Vec XR) (u' : Fin 3 → ℝ), Quat.rotate a v = .ok r ∧
      Quat.rotateInPlace a v = (.ok (), r') ∧ Vec3Is r u' ∧ Vec3Is r' u' ∧
      pureQ u' = q * pureQ u * star q := by
  obtain ⟨r, e, hr⟩ := rotate_run ha hq hv
  obtain ⟨h1, g, h2, h3⟩ := (C37_agree hv (forall_lt_three.mpr ⟨by simp [seq3], by simp [seq3], by simp [seq3]⟩)).2 r e
  refine ⟨r, (Quat.rotateInPlace a v).2, _, e, by rw [← h1], hr, ?_, rotBy_pure q u⟩
  exact h3.congr fun i hi => by
    have := (h2.get i hi).symm.trans (VecIs.get hr i hi)
    exact Except.ok.inj this

theorem rotBy_norm (hq : Quaternion.normSq q = 1) (u : Fin 3 → ℝ) :
    rotBy q u 0 ^ 2 + rotBy q u 1 ^ 2 + rotBy q u 2 ^ 2 = u 0 ^ 2 + u 1 ^ 2 + u 2 ^ 2 := by
  have h := congrArg Quaternion.normSq (rotBy_pure q u)
  rw [map_mul, map_mul, Quaternion.normSq_star, hq, one_mul, mul_one, pureQ, pureQ, normSq_mkQ,
    normSq_mkQ] at h
  linarith

/-- C37: rotating does not change what `calculate_norm` returns. -/
theorem C37_norm {v : Vec XR} (ha : QuatIs a q) (hq : Quaternion.normSq q = 1) (hv : Vec3Is v u) :
    ∃ r, Quat.rotate a v = .ok r ∧ r.calculateNorm = v.calculateNorm := by
  obtain ⟨r, e, hr⟩ := rotate_run ha hq hv
  refine ⟨r, e, ?_⟩
  have k : ∀ {w : Vec XR} {t : Fin 3 → ℝ}, Vec3Is w t →
      VecIs w 3 (fun i => .fin (seq3 (t 0) (t 1) (t 2) i)) := fun h =>
    VecIs.congr h (forall_lt_three.mpr ⟨rfl, rfl, rfl⟩)
  rw [C31_norm (k hr), C31_norm (k hv)]
  have : norm2 3 (seq3 (rotBy q u 0) (rotBy q u 1) (rotBy q u 2)) =
      norm2 3 (seq3 (u 0) (u 1) (u 2)) := by
    simp only [norm2, Finset.sum_range_succ, Finset.sum_range_zero, seq3, zero_add, rotBy_norm hq]
  rw [this]

/-- C37: rotating by `p` and then by `q` is rotating by `q p`. -/
theorem C37_compose {v : Vec XR} (ha : QuatIs a q) (hb : QuatIs b p) (hq : Quaternion.normSq q = 1)
    (hp : Quaternion.normSq p = 1) (hv : Vec3Is v u) :
    ∃ (ab r1 r2 r3 : Vec XR) (u' : Fin 3 → ℝ), Quat.mulNew a b = .ok ab ∧
      Quat.rotate ab v = .ok r1 ∧ Quat.rotate b v = .ok r2 ∧ Quat.rotate a r2 = .ok r3 ∧
      Vec3Is r1 u' ∧ Vec3Is r3 u' := by
  obtain ⟨ab, e1, h1⟩ := C34_hamilton ha hb
  obtain ⟨r1, e2, h2⟩ := rotate_run h1 (by rw [map_mul, hq, hp, one_mul]) hv
  obtain ⟨r2, e3, h3⟩ := rotate_run hb hp hv
  obtain ⟨r3, e4, h4⟩ := rotate_run ha hq h3
  rw [rotBy_mul] at h2
  exact ⟨ab, r1, r2, r3, _, e1, e2, e3, e4, h2, h4⟩

end

/-- A case of C36 and C37: a unit quaternion with four non-zero components. -/
example : Quaternion.normSq (mkQ (1 / 2) (1 / 2) (1 / 2) (1 / 2) : Quaternion ℝ) = 1 := by
  rw [normSq_mkQ]; norm_num

/-- It permutes the axes. -/
example : (Quat.rotate (quatOf (1 / 2) (1 / 2) (1 / 2) (1 / 2) : Vec XQ)
    (Vec.of 3 (seq3 (.fin 1) (.fin 2) (.fin 3))) >>= fun r => r.getElement 0) = .ok (.fin 3) := by
  decide +kernel

/-- C36: for a quaternion that is not a unit the matrix is not even a multiple of a rotation: the
quaternion 2 gives diag(4, 1, 1). -/
theorem C36_not_unit : ∃ m : Mat XR, Quat.convertToDcm (quatOf 2 0 0 0) = .ok m ∧
    m.getElement 0 0 = .ok (.fin 4) ∧ m.getElement 1 1 = .ok (.fin 1) ∧
    m.getElement 2 2 = .ok (.fin 1) := by
  obtain ⟨m, e, hm⟩ := dcm_run (quatOf_is (2 : ℝ) 0 0 0)
  refine ⟨m, e, ?_, ?_, ?_⟩
  · rw [hm.get 0 0 (by omega) (by omega)]; norm_num [dcmOf, tbl]
  · rw [hm.get 1 1 (by omega) (by omega)]; norm_num [dcmOf, tbl]
  · rw [hm.get 2 2 (by omega) (by omega)]; norm_num [dcmOf, tbl]

end Verif
