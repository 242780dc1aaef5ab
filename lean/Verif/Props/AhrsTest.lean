import Verif.Model.AhrsTest
import Verif.Props.ArExact
import Verif.Props.Random
import Verif.Props.QuatFuncs

/-
The simulation and the AR filter of the test of `open_ahrs/src/lib.rs`, in exact arithmetic.
-/

namespace Verif.AhrsTest
open Scalar Quaternion

/-- The quaternion in column `n` of a table of numbers. -/
noncomputable def colQ (x : Nat → Nat → ℝ) (n : Nat) : Quaternion ℝ := mkQ (x 0 n) (x 1 n) (x 2 n) (x 3 n)

/-- Component `i` of the vector part. -/
def part (q : Quaternion ℝ) : Nat → ℝ := seq3 q.imI q.imJ q.imK

/-- Seen through the API, `v` is the vector part of `q`. -/
def PartIs (v : Vec XR) (q : Quaternion ℝ) : Prop := VecIs v 3 (fun i => .fin (part q i))

theorem PartIs.of {v : Vec XR} {x y z : ℝ} (q : Quaternion ℝ)
    (h : VecIs v 3 (seq3 (.fin x) (.fin y) (.fin z))) (h1 : x = q.imI) (h2 : y = q.imJ) (h3 : z = q.imK) :
    PartIs v q := by
  subst h1 h2 h3
  exact h.congr (forall_lt_three.mpr ⟨rfl, rfl, rfl⟩)

variable {A : Mat XR} {x : Nat → Nat → ℝ} {c n : Nat} {u v w : Vec XR} {p q d g : Quaternion ℝ} {τ : ℝ}

theorem column_ok (hA : MatIs A 4 c (fun i j => .fin (x i j))) (hn : n < c) :
    ∃ v, column A n = .ok v ∧ QuatIs v (colQ x n) := by
  obtain ⟨v, e, h⟩ := Quat.fillq_ok (F := XR) (w := .fin (x 0 n)) (x := .fin (x 1 n)) (y := .fin (x 2 n)) (z := .fin (x 3 n))
    (Vec.zeros_is (n := 4) (by omega) (by omega)) (by simp) (by simp) (by simp) (by simp)
  refine ⟨v, ?_, QuatIs.of _ h rfl rfl rfl rfl⟩
  unfold column
  rw [Vec.init_new (by omega) (by omega), Res.ok_bind, hA.get 0 n (by omega) hn, Res.ok_bind,
    hA.get 1 n (by omega) hn, Res.ok_bind, hA.get 2 n (by omega) hn, Res.ok_bind,
    hA.get 3 n (by omega) hn, Res.ok_bind, exec_ok e]

theorem derivative_ok (hq : QuatIs v q) (hp : QuatIs w p) (hτ : τ ≠ 0) :
    ∃ u, derivative v w (.fin τ) = .ok u ∧ QuatIs u (τ⁻¹ • (p - q)) := by
  have hz := Vec.zeros_is (F := XR) (n := 4) (by omega) (by omega)
  obtain ⟨u1, e1, h1⟩ := Vec.exec_of_stores (Vec.sub_stores hz hp hq) hz
    (forall_lt_four.mpr ⟨by simp [seq4], by simp [seq4], by simp [seq4], by simp [seq4]⟩)
  have h1' : QuatIs u1 (p - q) := QuatIs.of (w := p.re - q.re) (x := p.imI - q.imI) (y := p.imJ - q.imJ) (z := p.imK - q.imK) _
    (h1.congr (forall_lt_four.mpr ⟨by simp [seq4], by simp [seq4], by simp [seq4], by simp [seq4]⟩)) rfl rfl rfl rfl
  obtain ⟨u2, e2, h2⟩ := Vec.exec_of_stores (Vec.mulByScalarInPlace_stores (x := .fin τ⁻¹) h1') h1'
    (forall_lt_four.mpr ⟨by simp [seq4], by simp [seq4], by simp [seq4], by simp [seq4]⟩)
  refine ⟨u2, ?_, QuatIs.of (w := (p - q).re * τ⁻¹) (x := (p - q).imI * τ⁻¹) (y := (p - q).imJ * τ⁻¹) (z := (p - q).imK * τ⁻¹) _
    (h2.congr (forall_lt_four.mpr ⟨by simp [seq4], by simp [seq4], by simp [seq4], by simp [seq4]⟩)) ?_ ?_ ?_ ?_⟩
  · unfold derivative
    rw [Vec.init_new (by omega) (by omega), Res.ok_bind, e1, Res.ok_bind, Ext.lit_one, Ext.div_fin _ hτ, one_div, e2]
  all_goals simp [mul_comm]

/-- Three components stored in a fresh vector. -/
theorem store3 (a b c : ℝ) : ∃ v1 v2 v3, exec (Vec.zeros 3 : Vec XR) (Vec.setElement 0 (.fin a)) = .ok v1 ∧
    exec v1 (Vec.setElement 1 (.fin b)) = .ok v2 ∧ exec v2 (Vec.setElement 2 (.fin c)) = .ok v3 ∧
    VecIs v3 3 (seq3 (.fin a) (.fin b) (.fin c)) := by
  have h0 := Vec.zeros_is (F := XR) (n := 3) (by omega) (by omega)
  obtain ⟨u1, e1, h1⟩ := h0.exec_set (i := 0) (by omega) (Ext.finite_fin a)
  obtain ⟨u2, e2, h2⟩ := h1.exec_set (i := 1) (by omega) (Ext.finite_fin b)
  obtain ⟨u3, e3, h3⟩ := h2.exec_set (i := 2) (by omega) (Ext.finite_fin c)
  exact ⟨u1, u2, u3, e1, e2, e3, h3.congr (forall_lt_three.mpr ⟨rfl, rfl, rfl⟩)⟩

theorem method1_ok (hq : QuatIs v q) (hp : QuatIs w p) (hτ : τ ≠ 0) :
    ∃ u, method1 v w (.fin τ) = .ok u ∧ PartIs u ((2 / τ) • (star q * p)) := by
  obtain ⟨v1, v2, v3, e1, e2, e3, h3⟩ := store3
    (q.re * p.imI - q.imI * p.re - q.imJ * p.imK + q.imK * p.imJ)
    (q.re * p.imJ + q.imI * p.imK - q.imJ * p.re - q.imK * p.imI)
    (q.re * p.imK - q.imI * p.imJ + q.imJ * p.imI - q.imK * p.re)
  obtain ⟨u, e, h⟩ := Vec.exec_of_stores (Vec.mulByScalarInPlace_stores (x := .fin (2 / τ)) h3) h3
    (forall_lt_three.mpr ⟨by simp [seq3], by simp [seq3], by simp [seq3]⟩)
  refine ⟨u, ?_, PartIs.of (x := _ * (2 / τ)) (y := _ * (2 / τ)) (z := _ * (2 / τ)) _
    (h.congr (forall_lt_three.mpr ⟨rfl, rfl, rfl⟩)) ?_ ?_ ?_⟩
  · unfold method1
    simp only [Vec.init_new (F := XR) (n := 3) (by omega) (by omega), Res.ok_bind, Quat.getQw_eq hq, Quat.getQx_eq hq,
      Quat.getQy_eq hq, Quat.getQz_eq hq, Quat.getQw_eq hp, Quat.getQx_eq hp, Quat.getQy_eq hp, Quat.getQz_eq hp,
      Ext.mul_fin, Ext.sub_fin, Ext.add_fin, e1, e2, e3]
    rw [show (lit 2 : XR) = .fin 2 by rw [Ext.lit_eq]; norm_num, Ext.div_fin _ hτ, e]
  all_goals
    simp
    ring

theorem method3_ok (hq : QuatIs v q) (hd : QuatIs w d) :
    ∃ u, method3 v w = .ok u ∧ PartIs u ((2 : ℝ) • (star q * d)) := by
  obtain ⟨c, _, e1, h1⟩ := C35_conjugate hq
  obtain ⟨u2, e2, h2⟩ := Vec.exec_of_stores (Vec.mulByScalarInPlace_stores (x := .fin 2) h1) h1
    (forall_lt_four.mpr ⟨by simp [seq4], by simp [seq4], by simp [seq4], by simp [seq4]⟩)
  have h2' : QuatIs u2 ((2 : ℝ) • star q) := QuatIs.of (w := q.re * 2) (x := -q.imI * 2) (y := -q.imJ * 2) (z := -q.imK * 2) _
    (h2.congr (forall_lt_four.mpr ⟨by simp [seq4], by simp [seq4], by simp [seq4], by simp [seq4]⟩))
    (by simp [mul_comm]) (by simp [mul_comm]) (by simp [mul_comm]) (by simp [mul_comm])
  obtain ⟨m, e3, h3⟩ := C34_hamilton h2' hd
  obtain ⟨u, e4, h4⟩ := getVectorPart_ok h3 (by simp) (by simp) (by simp)
  refine ⟨u, ?_, PartIs.of _ h4 (by rw [smul_mul_assoc]) (by rw [smul_mul_assoc]) (by rw [smul_mul_assoc])⟩
  unfold method3
  rw [e1, Res.ok_bind, show (lit 2 : XR) = .fin 2 by rw [Ext.lit_eq]; norm_num, e2, Res.ok_bind, e3, Res.ok_bind, e4]

theorem toLocal_ok (hq : QuatIs v q) (hg : QuatIs w g) :
    ∃ u, toLocal v w = .ok u ∧ PartIs u (q * g * star q) := by
  obtain ⟨m, e1, h1⟩ := C34_hamilton hq hg
  obtain ⟨m', e2, h2⟩ := Vec.duplicate_ok h1 (forall_lt_four.mpr ⟨by simp [seq4], by simp [seq4], by simp [seq4], by simp [seq4]⟩)
  obtain ⟨c, _, e3, h3⟩ := C35_conjugate hq
  obtain ⟨r, e4, h4⟩ := C34_hamilton (q := q * g) h2 h3
  obtain ⟨u, e5, h5⟩ := getVectorPart_ok h4 (by simp) (by simp) (by simp)
  refine ⟨u, ?_, PartIs.of _ h5 rfl rfl rfl⟩
  unfold toLocal
  rw [e1, Res.ok_bind, e2, Res.ok_bind, e3, Res.ok_bind, C34_agree h1 h2 h3, e4, Res.ok_bind, e5]

/-- The transformation matrix of method 2. -/
noncomputable def qMat (q : Quaternion ℝ) (i j : Nat) : ℝ :=
  seq3 (seq4 (-q.imI) q.re q.imK (-q.imJ) i) (seq4 (-q.imJ) (-q.imK) q.re q.imI i) (seq4 (-q.imK) q.imJ (-q.imI) q.re i) j

theorem method2_ok (hq : QuatIs v q) (hd : QuatIs w d) :
    ∃ u, method2 v w = .ok u ∧ PartIs u ((2 : ℝ) • (star q * d)) := by
  have h0 := Mat.zeros_is (F := XR) (r := 4) (c := 3) (by omega) (by omega) (by omega) (by omega)
  obtain ⟨m1, e1, h1⟩ := h0.exec_set (i := 0) (j := 0) (by omega) (by omega) (Ext.finite_fin (-q.imI))
  obtain ⟨m2, e2, h2⟩ := h1.exec_set (i := 1) (j := 0) (by omega) (by omega) (Ext.finite_fin q.re)
  obtain ⟨m3, e3, h3⟩ := h2.exec_set (i := 2) (j := 0) (by omega) (by omega) (Ext.finite_fin q.imK)
  obtain ⟨m4, e4, h4⟩ := h3.exec_set (i := 3) (j := 0) (by omega) (by omega) (Ext.finite_fin (-q.imJ))
  obtain ⟨m5, e5, h5⟩ := h4.exec_set (i := 0) (j := 1) (by omega) (by omega) (Ext.finite_fin (-q.imJ))
  obtain ⟨m6, e6, h6⟩ := h5.exec_set (i := 1) (j := 1) (by omega) (by omega) (Ext.finite_fin (-q.imK))
  obtain ⟨m7, e7, h7⟩ := h6.exec_set (i := 2) (j := 1) (by omega) (by omega) (Ext.finite_fin q.re)
  obtain ⟨m8, e8, h8⟩ := h7.exec_set (i := 3) (j := 1) (by omega) (by omega) (Ext.finite_fin q.imI)
  obtain ⟨m9, e9, h9⟩ := h8.exec_set (i := 0) (j := 2) (by omega) (by omega) (Ext.finite_fin (-q.imK))
  obtain ⟨m10, e10, h10⟩ := h9.exec_set (i := 1) (j := 2) (by omega) (by omega) (Ext.finite_fin q.imJ)
  obtain ⟨m11, e11, h11⟩ := h10.exec_set (i := 2) (j := 2) (by omega) (by omega) (Ext.finite_fin (-q.imI))
  obtain ⟨m12, e12, h12⟩ := h11.exec_set (i := 3) (j := 2) (by omega) (by omega) (Ext.finite_fin q.re)
  have hm : MatIs m12 4 3 (fun i j => .fin (qMat q i j)) := by
    refine h12.congr fun i j hi hj => ?_
    revert i; refine forall_lt_four.mpr ?_
    revert j; refine forall_lt_three.mpr ?_
    simp [qMat, seq3, seq4]
  obtain ⟨m13, e13, h13⟩ := Mat.duplicate_ok hm fun _ _ _ _ => Ext.finite_fin _
  obtain ⟨m14, e14, h14⟩ := Mat.exec_transpose h13 fun _ _ _ _ => Ext.finite_fin _
  obtain ⟨m15, e15, h15⟩ := Mat.exec_of_stores (Mat.mulByScalarInPlace_stores (x := .fin 2) h14) h14
    fun _ _ _ _ => by simp
  have h15' : MatIs m15 3 4 (fun i j => .fin (qMat q j i * 2)) := h15.congr fun _ _ _ _ => by simp
  have hd' : VecIs w 4 (fun i => .fin (seq4 d.re d.imI d.imJ d.imK i)) :=
    VecIs.congr hd (forall_lt_four.mpr ⟨rfl, rfl, rfl, rfl⟩)
  obtain ⟨b, e16, h16⟩ := Vec.convertToMatrix_ok hd' fun _ _ => Ext.finite_fin _
  obtain ⟨m, e17, h17⟩ := Mat.mulNew_ok h15' h16 fun i j l _ _ _ => by
    unfold Mat.cellTerm
    simp only [Ext.mul_fin, sumUp_fin, Ext.finite_fin]
  obtain ⟨u, e18, h18⟩ := Mat.colToVector_ok (j := 0) h17 (by omega) fun i _ => by
    unfold Mat.cellTerm
    simp only [Ext.mul_fin, sumUp_fin, Ext.finite_fin]
  refine ⟨u, ?_, h18.congr ?_⟩
  · unfold method2
    rw [Quat.getQw_eq hq, Res.ok_bind, Quat.getQx_eq hq, Res.ok_bind, Quat.getQy_eq hq, Res.ok_bind, Quat.getQz_eq hq,
      Res.ok_bind, Mat.init_new (F := XR) (r := 4) (c := 3) (by omega) (by omega) (by omega) (by omega), Res.ok_bind]
    rw [Ext.neg_fin, e1, Res.ok_bind, e2, Res.ok_bind, e3, Res.ok_bind, Ext.neg_fin, e4, Res.ok_bind, e5, Res.ok_bind,
      Ext.neg_fin, e6, Res.ok_bind, e7, Res.ok_bind, e8, Res.ok_bind, e9, Res.ok_bind, e10, Res.ok_bind, e11,
      Res.ok_bind, e12, Res.ok_bind, e13, Res.ok_bind, e14, Res.ok_bind]
    rw [show (lit 2 : XR) = .fin 2 by rw [Ext.lit_eq]; norm_num, e15, Res.ok_bind, e16, Res.ok_bind, e17, Res.ok_bind, e18]
  · unfold Mat.cellTerm
    simp only [Ext.mul_fin, sumUp_fin, Ext.fin_inj]
    refine forall_lt_three.mpr ⟨?_, ?_, ?_⟩ <;> simp [Finset.sum_range_succ, qMat, part, seq3, seq4] <;> ring


/-! ### The simulation -/

theorem table_ok {r k : Nat} (h1 : 1 ≤ r) (h2 : r ≤ 4) (h3 : 1 ≤ k) (h4 : k ≤ 4) :
    ∃ m : Mat XR, table r k = .ok m ∧ MatIs m r k (fun _ _ => .fin 0) := by
  have h0 := Mat.zeros_is (F := XR) (r := r) (c := k) h1 h2 h3 h4
  obtain ⟨m, e, h⟩ := Mat.exec_of_stores (Mat.fill_stores (x := .fin 0) h0) h0 fun _ _ _ _ => Ext.finite_fin _
  refine ⟨m, ?_, h⟩
  unfold table
  rw [Mat.init_new h1 h2 h3 h4, Res.ok_bind, Ext.lit_zero, e]

/-- A column that receives a vector part. -/
theorem put_col {m : Mat XR} {k j : Nat} {f : Nat → Nat → ℝ} (hm : MatIs m 3 k (fun i n => .fin (f i n)))
    (hv : PartIs v q) (hj : j < k) : ∃ m', exec m (Mat.setCol v j) = .ok m' ∧
      MatIs m' 3 k (fun i n => .fin (if n = j then part q i else f i n)) := by
  obtain ⟨m', e, h⟩ := Mat.setCol_ok hm hv hj fun _ _ => Ext.finite_fin _
  exact ⟨m', exec_ok e, h.congr fun i n _ _ => by split <;> rfl⟩

/-- The vector parts of the quaternions `f 0`, `f 1`, … in the columns below `n`, zero from there on. -/
def Filled (m : Mat XR) (k n : Nat) (f : Nat → Quaternion ℝ) : Prop :=
  MatIs m 3 k (fun i j => .fin (if j < n then part (f j) i else 0))

theorem Filled.next {m : Mat XR} {k j : Nat} {f : Nat → Quaternion ℝ} (hm : Filled m k j f) (hv : PartIs v (f j))
    (hj : j < k) : ∃ m', exec m (Mat.setCol v j) = .ok m' ∧ Filled m' k (j + 1) f := by
  obtain ⟨m', e, h⟩ := put_col hm hv hj
  refine ⟨m', e, h.congr fun i n _ _ => ?_⟩
  congr 1
  by_cases hn : n = j
  · subst hn
    simp
  · have : n < j + 1 ↔ n < j := by omega
    simp only [hn, if_false, this]

/-- The rate the test computes from the attitudes `n` and `n + 1`. -/
noncomputable def rateQ (x : Nat → Nat → ℝ) (τ : ℝ) (n : Nat) : Quaternion ℝ :=
  (2 / τ) • (star (colQ x n) * colQ x (n + 1))

/-- The difference quotient gives the same vector part. -/
theorem part_quotient (p q : Quaternion ℝ) (τ : ℝ) (i : Nat) (hi : i < 3) :
    part ((2 : ℝ) • (star q * (τ⁻¹ • (p - q)))) i = part ((2 / τ) • (star q * p)) i := by
  revert i
  refine forall_lt_three.mpr ⟨?_, ?_, ?_⟩ <;> simp [part, seq3] <;> ring

theorem simStep_ok {va vm : Vec XR} {a m : Quaternion ℝ} {k : Nat} {s : Sim XR} {f : Nat → Nat → ℝ}
    (hA : MatIs A 4 (k + 1) (fun i j => .fin (x i j))) (hn : n < k) (hτ : τ ≠ 0) (ha : QuatIs va a) (hm : QuatIs vm m)
    (h0 : MatIs s.rates 3 3 (fun i j => .fin (f i j))) (h1 : Filled s.gyr k n (rateQ x τ))
    (h2 : Filled s.acc k n fun n => colQ x n * a * star (colQ x n))
    (h3 : Filled s.mag k n fun n => colQ x n * m * star (colQ x n)) :
    ∃ s', simStep A va vm (.fin τ) n s = .ok s' ∧ MatIs s'.rates 3 3 (fun i _ => .fin (part (rateQ x τ n) i)) ∧
      Filled s'.gyr k (n + 1) (rateQ x τ) ∧ Filled s'.acc k (n + 1) (fun n => colQ x n * a * star (colQ x n)) ∧
      Filled s'.mag k (n + 1) (fun n => colQ x n * m * star (colQ x n)) := by
  obtain ⟨q0, e1, k1⟩ := column_ok hA (show n < k + 1 by omega)
  obtain ⟨q1, e2, k2⟩ := column_ok hA (show n + 1 < k + 1 by omega)
  obtain ⟨qd, e3, k3⟩ := derivative_ok k1 k2 hτ
  obtain ⟨w1, e4, k4⟩ := method1_ok k1 k2 hτ
  obtain ⟨w2, e5, k5⟩ := method2_ok k1 k3
  obtain ⟨w3, e6, k6⟩ := method3_ok k1 k3
  have k5' : PartIs w2 (rateQ x τ n) := VecIs.congr k5 fun i hi => by rw [part_quotient _ _ _ i hi]; rfl
  have k6' : PartIs w3 (rateQ x τ n) := VecIs.congr k6 fun i hi => by rw [part_quotient _ _ _ i hi]; rfl
  obtain ⟨r1, e7, k7⟩ := put_col h0 k4 (show 0 < 3 by omega)
  obtain ⟨r2, e8, k8⟩ := put_col k7 k5' (show 1 < 3 by omega)
  obtain ⟨r3, e9, k9⟩ := put_col k8 k6' (show 2 < 3 by omega)
  obtain ⟨g, e10, k10⟩ := h1.next k6' hn
  obtain ⟨la, e11, k11⟩ := toLocal_ok k1 ha
  obtain ⟨C, e12, k12⟩ := h2.next k11 hn
  obtain ⟨lm, e13, k13⟩ := toLocal_ok k1 hm
  obtain ⟨M, e14, k14⟩ := h3.next k13 hn
  refine ⟨⟨r3, g, C, M⟩, ?_, k9.congr fun i j _ hj => ?_, k10, k12, k14⟩
  · unfold simStep
    rw [e1, Res.ok_bind, e2, Res.ok_bind, e3, Res.ok_bind, e4, Res.ok_bind, e7, Res.ok_bind, e5, Res.ok_bind, e8,
      Res.ok_bind, e6, Res.ok_bind, e9, Res.ok_bind, e10, Res.ok_bind, e11, Res.ok_bind, e12, Res.ok_bind, e13,
      Res.ok_bind, e14, Res.ok_bind]
  · congr 1
    revert j
    exact forall_lt_three.mpr ⟨rfl, rfl, rfl⟩

theorem simulate_ok {va vm : Vec XR} {a m : Quaternion ℝ} {k : Nat}
    (hA : MatIs A 4 (k + 1) (fun i j => .fin (x i j))) (hk : 1 ≤ k) (hτ : τ ≠ 0) (ha : QuatIs va a)
    (hm : QuatIs vm m) :
    ∃ s, simulate A va vm (.fin τ) k = .ok s ∧ MatIs s.rates 3 3 (fun i _ => .fin (part (rateQ x τ (k - 1)) i)) ∧
      Filled s.gyr k k (rateQ x τ) ∧ Filled s.acc k k (fun n => colQ x n * a * star (colQ x n)) ∧
      Filled s.mag k k (fun n => colQ x n * m * star (colQ x n)) := by
  have hk4 : k ≤ 4 := by have := hA.cle; omega
  obtain ⟨r, e1, h1⟩ := table_ok (r := 3) (k := 3) (by omega) (by omega) (by omega) (by omega)
  obtain ⟨z, e2, h2⟩ := table_ok (r := 3) (k := k) (by omega) (by omega) hk hk4
  have hz : ∀ f, Filled z k 0 f := fun f => h2.congr fun i j _ _ => by simp
  obtain ⟨s, e, ⟨f, h3, h4⟩, h5, h6, h7⟩ := foldRange_inv (simStep A va vm (.fin τ))
    (fun n s => (∃ f : Nat → Nat → ℝ, MatIs s.rates 3 3 (fun i j => .fin (f i j)) ∧ (1 ≤ n → ∀ i j, f i j = part (rateQ x τ (n - 1)) i)) ∧
      Filled s.gyr k n (rateQ x τ) ∧ Filled s.acc k n (fun n => colQ x n * a * star (colQ x n)) ∧
      Filled s.mag k n (fun n => colQ x n * m * star (colQ x n))) 0 k (by omega) ⟨r, z, z, z⟩
    ⟨⟨_, h1, fun h => absurd h (by omega)⟩, hz _, hz _, hz _⟩ (by
      rintro n s - hn ⟨⟨f, h3, -⟩, h5, h6, h7⟩
      obtain ⟨s', e, k1, k2, k3, k4⟩ := simStep_ok hA hn hτ ha hm h3 h5 h6 h7
      exact ⟨s', e, ⟨_, k1, fun _ i j => rfl⟩, k2, k3, k4⟩)
  refine ⟨s, ?_, h3.congr fun i j _ _ => by rw [h4 hk], h5, h6, h7⟩
  unfold simulate
  rw [e1, Res.ok_bind, e2, Res.ok_bind, Res.ok_bind, Res.ok_bind, e]

/-! ### C95: the simulated sensors -/

/-- Column `n` of a table with three rows holds the vector part of `q`. -/
def ColIs (m : Mat XR) (n : Nat) (q : Quaternion ℝ) : Prop := ∀ i, i < 3 → m.getElement i n = .ok (.fin (part q i))

theorem Filled.col {m : Mat XR} {k n j : Nat} {f : Nat → Quaternion ℝ} (h : Filled m k n f) (hj : j < n) (hk : j < k) :
    ColIs m j (f j) := fun i hi => by rw [MatIs.get h i j hi hk, if_pos hj]

/-- C95: for every table of attitudes the simulation succeeds.  Column `n` of the gyrometer is the vector part of
`(2 / ts) · conj(q n) · q (n + 1)`; columns `n` of the accelerometer and the magnetometer are those of
`q n · g · conj(q n)` for the global vector `g`. -/
theorem C95_sensors {va vm : Vec XR} {a m : Quaternion ℝ} {k : Nat}
    (hA : MatIs A 4 (k + 1) (fun i j => .fin (x i j))) (hk : 1 ≤ k) (hτ : τ ≠ 0) (ha : QuatIs va a)
    (hm : QuatIs vm m) :
    ∃ s, simulate A va vm (.fin τ) k = .ok s ∧ ∀ n, n < k →
      ColIs s.gyr n ((2 / τ) • (star (colQ x n) * colQ x (n + 1))) ∧
      ColIs s.acc n (colQ x n * a * star (colQ x n)) ∧ ColIs s.mag n (colQ x n * m * star (colQ x n)) := by
  obtain ⟨s, e, -, h1, h2, h3⟩ := simulate_ok hA hk hτ ha hm
  exact ⟨s, e, fun n hn => ⟨h1.col hn hn, h2.col hn hn, h3.col hn hn⟩⟩

/-- C95: the three methods for the angular rates agree, also for quaternions that are not of norm one. -/
theorem C95_methods (hq : QuatIs v q) (hp : QuatIs w p) (hτ : τ ≠ 0) :
    ∃ qd w1 w2 w3, derivative v w (.fin τ) = .ok qd ∧ method1 v w (.fin τ) = .ok w1 ∧ method2 v qd = .ok w2 ∧
      method3 v qd = .ok w3 ∧ ∀ i, i < 3 → w1.getElement i = w2.getElement i ∧ w2.getElement i = w3.getElement i ∧
        w3.getElement i = .ok (.fin (part ((2 / τ) • (star q * p)) i)) := by
  obtain ⟨qd, e3, k3⟩ := derivative_ok hq hp hτ
  obtain ⟨w1, e4, k4⟩ := method1_ok hq hp hτ
  obtain ⟨w2, e5, k5⟩ := method2_ok hq k3
  obtain ⟨w3, e6, k6⟩ := method3_ok hq k3
  refine ⟨qd, w1, w2, w3, e3, e4, e5, e6, fun i hi => ?_⟩
  rw [VecIs.get k4 i hi, VecIs.get k5 i hi, VecIs.get k6 i hi, part_quotient _ _ _ i hi]
  exact ⟨rfl, rfl, rfl⟩

theorem turned (p q : Quaternion ℝ) (hq : Quaternion.normSq q = 1) :
    q * (star q * p).im * star q = (p * star q).im := by
  have e : ∀ y : Quaternion ℝ, y.im = (1 / 2 : ℝ) • (y - star y) := fun y => by
    apply Quaternion.ext <;> simp <;> ring
  have s : q * star q = 1 := by
    rw [Quaternion.self_mul_star, hq]; rfl
  have e1 : q * (star q * p) * star q = p * star q := by rw [← mul_assoc q, s, one_mul]
  have e2 : q * (star p * q) * star q = q * star p := by rw [mul_assoc q, mul_assoc (star p), s, mul_one]
  rw [e, e, mul_smul_comm, smul_mul_assoc, mul_sub, sub_mul, star_mul, star_mul, star_star, e1, e2]

/-- C95: for unit attitudes two successive accelerations differ by the rotation `r = q (n + 1) · conj(q n)`, so that
they turn at the rate `(2 / ts) · Im r` before the sensor and the sensor at the opposite rate.  The rate the gyrometer
reports is not the opposite rate, but the same rate taken to another frame, by `q n`. -/
theorem C95_frames {va vm : Vec XR} {a m : Quaternion ℝ} {k : Nat}
    (hA : MatIs A 4 (k + 1) (fun i j => .fin (x i j))) (hτ : τ ≠ 0) (ha : QuatIs va a) (hm : QuatIs vm m)
    (ha0 : a.re = 0) (hu : ∀ n, n < k + 1 → Quaternion.normSq (colQ x n) = 1) (hn : n + 1 < k) :
    ∃ s c c' w, simulate A va vm (.fin τ) k = .ok s ∧ ColIs s.acc n c ∧ ColIs s.acc (n + 1) c' ∧ ColIs s.gyr n w ∧
      c.re = 0 ∧ c'.re = 0 ∧ w.re = 0 ∧
      c' = (colQ x (n + 1) * star (colQ x n)) * c * star (colQ x (n + 1) * star (colQ x n)) ∧
      colQ x n * w * star (colQ x n) = (2 / τ) • (colQ x (n + 1) * star (colQ x n)).im := by
  obtain ⟨s, e, h⟩ := C95_sensors hA (by omega) hτ ha hm
  have h0 := h n (by omega)
  have h1 := h (n + 1) hn
  have u0 := hu n (by omega)
  have s0 : star (colQ x n) * colQ x n = 1 := by
    rw [Quaternion.star_mul_self, u0]; rfl
  have s1 : colQ x n * star (colQ x n) = 1 := by
    rw [Quaternion.self_mul_star, u0]; rfl
  refine ⟨s, _, _, ((2 / τ) • (star (colQ x n) * colQ x (n + 1))).im, e, h0.2.1, h1.2.1, fun i hi => ?_, ?_, ?_, ?_, ?_, ?_⟩
  · rw [h0.1 i hi]
    revert i
    exact forall_lt_three.mpr ⟨rfl, rfl, rfl⟩
  · simp [ha0]; ring
  · simp [ha0]; ring
  · rfl
  · rw [star_mul, star_star]
    calc colQ x (n + 1) * a * star (colQ x (n + 1))
        = colQ x (n + 1) * (star (colQ x n) * colQ x n) * a * (star (colQ x n) * colQ x n) * star (colQ x (n + 1)) := by
          rw [s0, mul_one, mul_one]
      _ = _ := by simp only [mul_assoc]
  · rw [show ((2 / τ) • (star (colQ x n) * colQ x (n + 1))).im = (2 / τ) • (star (colQ x n) * colQ x (n + 1)).im from by
      apply Quaternion.ext <;> simp]
    rw [mul_smul_comm, smul_mul_assoc, turned _ _ u0]

/-- A case of `C95_methods`, with quaternions that are not of norm one: the rate about `z` between `2 + i` and `3 j`, in
steps of one second, is -6 for each method. -/
example : ∃ (v w qd w1 w2 w3 : Vec XR), QuatIs v (mkQ 2 1 0 0) ∧ QuatIs w (mkQ 0 0 3 0) ∧
    derivative v w (.fin 1) = .ok qd ∧ method1 v w (.fin 1) = .ok w1 ∧ method2 v qd = .ok w2 ∧ method3 v qd = .ok w3 ∧
    w1.getElement 2 = .ok (.fin (-6)) ∧ w2.getElement 2 = .ok (.fin (-6)) ∧ w3.getElement 2 = .ok (.fin (-6)) := by
  obtain ⟨v, -, hv⟩ := Quat.fillq_ok (F := XR) (w := .fin 2) (x := .fin 1) (y := .fin 0) (z := .fin 0)
    (Vec.zeros_is (n := 4) (by omega) (by omega)) (Ext.finite_fin _) (Ext.finite_fin _) (Ext.finite_fin _) (Ext.finite_fin _)
  obtain ⟨w, -, hw⟩ := Quat.fillq_ok (F := XR) (w := .fin 0) (x := .fin 0) (y := .fin 3) (z := .fin 0)
    (Vec.zeros_is (n := 4) (by omega) (by omega)) (Ext.finite_fin _) (Ext.finite_fin _) (Ext.finite_fin _) (Ext.finite_fin _)
  obtain ⟨qd, w1, w2, w3, e, e1, e2, e3, h⟩ := C95_methods (q := mkQ 2 1 0 0) (p := mkQ 0 0 3 0) (τ := 1) (QuatIs.of _ hv rfl rfl rfl rfl) (QuatIs.of _ hw rfl rfl rfl rfl) one_ne_zero
  obtain ⟨h1, h2, h3⟩ := h 2 (by omega)
  have hp : part ((2 / 1 : ℝ) • (star (mkQ 2 1 0 0) * mkQ 0 0 3 0)) 2 = -6 := by
    simp [part, seq3]
    norm_num
  rw [hp] at h3
  exact ⟨v, w, qd, w1, w2, w3, QuatIs.of _ hv rfl rfl rfl rfl, QuatIs.of _ hw rfl rfl rfl rfl, e, e1, e2, e3, by rw [h1, h2, h3], by rw [h2, h3], h3⟩

end Verif.AhrsTest
