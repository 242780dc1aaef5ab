import Mathlib.Analysis.Quaternion
import Mathlib.Analysis.Calculus.Deriv.Mul
import Mathlib.Analysis.SpecialFunctions.Exponential
import Verif.Props.Ar
import Verif.Props.QuatFuncs

/-
Claims about the AR filter in exact arithmetic: unit attitudes (C48), the closed form (C49), Euler and
Taylor (C50), the order of the Taylor series (C51).
-/

set_option linter.unusedSectionVars false
set_option linter.unusedSimpArgs false

namespace Verif
open Scalar

/-- The angular rate after calibration, as a pure quaternion. -/
noncomputable def GyrometerConfig.rate (d : GyrometerConfig ℝ) (x y z : ℝ) : Quaternion ℝ :=
  mkQ 0 (d.xScale * (x - d.xBias) + d.yx * (y - d.yBias) + d.zx * (z - d.zBias))
    (d.xy * (x - d.xBias) + d.yScale * (y - d.yBias) + d.zy * (z - d.zBias))
    (d.xz * (x - d.xBias) + d.yz * (y - d.yBias) + d.zScale * (z - d.zBias))

theorem quat_norm (q : Quaternion ℝ) : ‖q‖ = √(Quaternion.normSq q) := by
  rw [Quaternion.normSq_eq_norm_mul_self, Real.sqrt_mul_self (norm_nonneg q)]

/-- `powf` with a positive integer exponent. -/
theorem pow_nat (x : ℝ) {n : Nat} (h : 1 ≤ n) :
    Scalar.pow (.fin x : XR) (lit (n : ℚ)) = .fin (x ^ n) := by
  rw [Ext.lit_eq]
  show Ext.pow (.fin x) (.fin ((n : ℚ) : ℝ)) = _
  have hn : ((n : ℚ) : ℝ) = (n : ℝ) := by norm_cast
  rw [hn]
  have h0 : (n : ℝ) ≠ 0 := by positivity
  have hi : (Elementary.isInt (n : ℝ)) = true := by
    classical
    show decide (∃ k : ℤ, (n : ℝ) = k) = true
    exact decide_eq_true ⟨n, by norm_cast⟩
  unfold Ext.pow
  simp only [h0, if_false, hi]
  by_cases hx : x = 0
  · rw [if_pos hx, if_neg (by simp), hx, zero_pow (by omega)]
  · rw [if_neg hx, if_neg (by simp)]
    show Ext.fin (x ^ (n : ℝ)) = _
    rw [Real.rpow_natCast]

namespace AR

/-- One row of a 4×4 matrix applied to a quaternion. -/
def row (A : Nat → Nat → ℝ) (a : Quaternion ℝ) (i : Nat) : ℝ :=
  A i 0 * a.re + A i 1 * a.imI + A i 2 * a.imJ + A i 3 * a.imK

theorem apply_run {t : Mat XR} {v : Vec XR} {A : Nat → Nat → ℝ} {a : Quaternion ℝ}
    (ht : MatIs t 4 4 (fun i j => .fin (A i j))) (hv : QuatIs v a) :
    ∃ c m, v.convertToMatrix = .ok c ∧ t.mulNew c = .ok m ∧
      MatIs m 4 1 (fun i _ => .fin (row A a i)) := by
  obtain ⟨c, e1, h1⟩ := Vec.convertToMatrix_ok hv (forall_lt_four.mpr ⟨Ext.finite_fin _,
    Ext.finite_fin _, Ext.finite_fin _, Ext.finite_fin _⟩)
  have h1' : MatIs c 4 1 (fun i _ => .fin (seq4 a.re a.imI a.imJ a.imK i)) :=
    h1.congr fun i j hi _ => by
      revert i; exact forall_lt_four.mpr ⟨rfl, rfl, rfl, rfl⟩
  have hs : ∀ i j l, sumUp l (Mat.cellTerm (fun i j => Ext.fin (A i j))
      (fun i _ => Ext.fin (seq4 a.re a.imI a.imJ a.imK i)) i j) =
      .fin (∑ t ∈ Finset.range l, A i t * seq4 a.re a.imI a.imJ a.imK t) := by
    intro i j l
    rw [← sumUp_fin]
    rfl
  obtain ⟨m, e2, h2⟩ := Mat.mulNew_ok ht h1' fun i j l _ _ _ => by rw [hs]; exact Ext.finite_fin _
  refine ⟨c, m, e1, e2, h2.congr fun i j hi _ => ?_⟩
  rw [hs]
  simp [Finset.sum_range_succ, seq4, row]

/-- The components of a quaternion as the filter stores them. -/
def comps (b : Quaternion ℝ) : XR × XR × XR × XR := (.fin b.re, .fin b.imI, .fin b.imJ, .fin b.imK)

theorem tail_run {t : Mat XR} {v : Vec XR} {A : Nat → Nat → ℝ} {a b : Quaternion ℝ}
    (ht : MatIs t 4 4 (fun i j => .fin (A i j))) (hv : QuatIs v a) (h0 : row A a 0 = b.re)
    (h1 : row A a 1 = b.imI) (h2 : row A a 2 = b.imJ) (h3 : row A a 3 = b.imK) :
    (do
      let attitude ← liftL (t.mulNew (← liftL v.convertToMatrix))
      let qw ← liftL (attitude.getElement 0 0)
      let qx ← liftL (attitude.getElement 1 0)
      let qy ← liftL (attitude.getElement 2 0)
      let qz ← liftL (attitude.getElement 3 0)
      .ok (qw, qx, qy, qz) : Res AhrsError (XR × XR × XR × XR)) = .ok (comps b) := by
  obtain ⟨c, m, e1, e2, hm⟩ := apply_run ht hv
  simp only [e1, e2, Res.mapErr_ok, Res.ok_bind, hm.get 0 0 (by omega) (by omega),
    hm.get 1 0 (by omega) (by omega), hm.get 2 0 (by omega) (by omega),
    hm.get 3 0 (by omega) (by omega), h0, h1, h2, h3]
  rfl

variable {t : Mat XR} {v att : Vec XR} {a : Quaternion ℝ} {τ p q r n : ℝ}

/-- The matrix of `a ↦ a ⊗ (0, p, q, r)`. -/
def omegaR (p q r : ℝ) : Nat → Nat → ℝ
  | 0 => seq4 0 (-p) (-q) (-r)
  | 1 => seq4 p 0 r (-q)
  | 2 => seq4 q (-r) 0 p
  | _ => seq4 r q (-p) 0

theorem omega_fin (p q r : ℝ) : ∃ m, Ahrs.calculateOmegaMatrix (.fin p : XR) (.fin q) (.fin r) = .ok m ∧
    MatIs m 4 4 (fun i j => .fin (omegaR p q r i j)) := by
  obtain ⟨m, e, h⟩ := omega_ok (F := XR) (Ext.finite_fin p) (Ext.finite_fin q) (Ext.finite_fin r)
    (Ext.finite_fin _) (Ext.finite_fin _) (Ext.finite_fin _)
  refine ⟨m, e, h.congr fun i j hi hj => ?_⟩
  revert i; refine forall_lt_four.mpr ?_
  revert j; refine forall_lt_four.mpr ?_
  simp [omegaEntry, omegaR, seq4]

theorem scale4 {m : Mat XR} {A : Nat → Nat → ℝ} (c : ℝ) (hm : MatIs m 4 4 (fun i j => .fin (A i j))) :
    ∃ m', exec m (Mat.mulByScalarInPlace (.fin c)) = .ok m' ∧
      MatIs m' 4 4 (fun i j => .fin (A i j * c)) :=
  Mat.exec_of_stores (Mat.mulByScalarInPlace_stores (x := .fin c) hm) hm fun _ _ _ _ => Ext.finite_fin _

theorem add4 {m m1 : Mat XR} {A B : Nat → Nat → ℝ} (hm : MatIs m 4 4 (fun i j => .fin (A i j)))
    (h1 : MatIs m1 4 4 (fun i j => .fin (B i j))) :
    ∃ m', exec m (Mat.addInPlace m1) = .ok m' ∧ MatIs m' 4 4 (fun i j => .fin (A i j + B i j)) :=
  Mat.exec_of_stores (Mat.addInPlace_stores hm h1) hm fun _ _ _ _ => Ext.finite_fin _

/-- The identity matrix. -/
def idR (i j : Nat) : ℝ := if i = j then 1 else 0

theorem id_fin (ht : MatIs t 4 4 (fun i j => if i = j then lit 1 else lit 0)) :
    MatIs t 4 4 (fun i j => .fin (idR i j)) :=
  ht.congr fun i j _ _ => by
    unfold idR
    split <;> simp

/-- Closed form. -/
theorem advance_closed (ht : MatIs t 4 4 (fun i j => if i = j then lit 1 else lit 0))
    (ha : QuatIs att a) (hn : n ≠ 0) (order : Nat) (w x y z : XR) :
    advance t v att (.fin τ) .ClosedForm order (.fin p) (.fin q) (.fin r) (.fin n) w x y z =
      .ok (comps (a * mkQ (Real.cos (n * τ / 2)) (p * (Real.sin (n * τ / 2) / n))
        (q * (Real.sin (n * τ / 2) / n)) (r * (Real.sin (n * τ / 2) / n)))) := by
  obtain ⟨m, e1, h1⟩ := omega_fin p q r
  have hth : (.fin n : XR) *ᶠ .fin τ /ᶠ lit 2 = .fin (n * τ / 2) := by
    rw [Ext.mul_fin, Ext.lit_eq, Ext.div_fin _ (by norm_num)]
    norm_num
  obtain ⟨t1, e2, h2⟩ := scale4 (Real.cos (n * τ / 2)) (id_fin ht)
  obtain ⟨m1, e3, h3⟩ := scale4 (Real.sin (n * τ / 2) / n) h1
  obtain ⟨t2, e4, h4⟩ := add4 h2 h3
  have hs : Scalar.sin (.fin (n * τ / 2) : XR) /ᶠ .fin n = .fin (Real.sin (n * τ / 2) / n) :=
    Ext.div_fin _ hn
  unfold advance matrixStep
  simp only [e1, Res.mapErr_ok, Res.ok_bind, true_or, if_true, hth, hs]
  rw [show Scalar.cos (.fin (n * τ / 2) : XR) = .fin (Real.cos (n * τ / 2)) from rfl]
  simp only [e2, e3, e4, Res.mapErr_ok, Res.ok_bind]
  refine tail_run h4 ha ?_ ?_ ?_ ?_
  all_goals simp [row, idR, omegaR, seq4]
  all_goals ring

/-- The Taylor matrix up to the given order. -/
noncomputable def taylorR (S : Nat → Nat → ℝ) (order i j : Nat) : ℝ :=
  idR i j + ∑ k ∈ Finset.range order, S i j ^ (k + 1) * (1 / (Nat.factorial (k + 1) : ℝ))

theorem factorial_ok (F : Type) [Scalar F] {ε : Type} : ∀ {k : Nat}, k ≤ 20 →
    (Utils.factorial F k : Res ε Nat) = .ok (Nat.factorial k)
  | 0, _ => rfl
  | 1, _ => rfl
  | k + 2, h => by
    unfold Utils.factorial
    rw [factorial_ok F (show k + 1 ≤ 20 by omega)]
    have hlt : (k + 2) * Nat.factorial (k + 1) < 2 ^ 64 := by
      rw [← Nat.factorial_succ]
      exact lt_of_le_of_lt (Nat.factorial_le h) (by decide +kernel)
    show u64Mul F (k + 2) (Nat.factorial (k + 1)) = _
    unfold u64Mul
    rw [if_pos hlt, ← Nat.factorial_succ]

theorem taylor_body {omega temp : Mat XR} {S T : Nat → Nat → ℝ} {k : Nat}
    (ho : MatIs omega 4 4 (fun i j => .fin (S i j))) (ht : MatIs temp 4 4 (fun i j => .fin (T i j)))
    (h1 : 1 ≤ k) (h2 : k ≤ 20) :
    ∃ temp', (do
      let s ← liftL omega.duplicate
      let s ← liftL (exec s (Mat.powerElements (lit k)))
      let factor ← (Utils.factorial XR k : Res AhrsError Nat)
      let s ← liftL (exec s (Mat.mulByScalarInPlace (lit 1 /ᶠ lit factor)))
      liftL (exec temp (Mat.addInPlace s)) : Res AhrsError (Mat XR)) = .ok temp' ∧
      MatIs temp' 4 4 (fun i j => .fin (T i j + S i j ^ k * (1 / (Nat.factorial k : ℝ)))) := by
  obtain ⟨s, e1, hs⟩ := Mat.duplicate_ok ho (fun _ _ _ _ => Ext.finite_fin _)
  obtain ⟨s1, e2, hs1⟩ := Mat.exec_of_stores (Mat.powerElements_stores (x := lit (k : ℚ)) hs) hs
    (fun i j _ _ => by rw [pow_nat _ h1]; exact Ext.finite_fin _)
  have hs1' : MatIs s1 4 4 (fun i j => .fin (S i j ^ k)) := hs1.congr fun i j _ _ => pow_nat _ h1
  have hf : (lit 1 : XR) /ᶠ lit ((Nat.factorial k : Nat) : ℚ) = .fin (1 / (Nat.factorial k : ℝ)) := by
    rw [Ext.lit_eq, Ext.lit_eq, Ext.div_fin _ (by exact_mod_cast Nat.factorial_ne_zero k)]
    push_cast
    rfl
  obtain ⟨s2, e3, hs2⟩ := scale4 (1 / (Nat.factorial k : ℝ)) hs1'
  obtain ⟨t', e4, ht'⟩ := add4 ht hs2
  refine ⟨t', ?_, ht'⟩
  simp only [e1, e2, Res.mapErr_ok, Res.ok_bind, factorial_ok XR h2, hf, e3, e4]

theorem taylor_run {omega temp : Mat XR} {S : Nat → Nat → ℝ} {order : Nat}
    (ho : MatIs omega 4 4 (fun i j => .fin (S i j)))
    (ht : MatIs temp 4 4 (fun i j => .fin (idR i j))) (h : order ≤ 20) :
    ∃ t', taylorLoop omega temp order = .ok t' ∧ MatIs t' 4 4 (fun i j => .fin (taylorR S order i j)) := by
  unfold taylorLoop
  obtain ⟨t', e, h'⟩ := foldRange_inv
    (fun n (temp : Mat XR) => (do
      let s ← liftL omega.duplicate
      let s ← liftL (exec s (Mat.powerElements (lit n)))
      let factor ← (Utils.factorial XR n : Res AhrsError Nat)
      let s ← liftL (exec s (Mat.mulByScalarInPlace (lit 1 /ᶠ lit factor)))
      liftL (exec temp (Mat.addInPlace s)) : Res AhrsError (Mat XR)))
    (fun k temp => MatIs temp 4 4 (fun i j => .fin (taylorR S (k - 1) i j))) 1 (order + 1) (by omega)
    temp (ht.congr fun i j _ _ => by simp [taylorR]) (fun k b h1 h2 hb => by
      obtain ⟨t', e, h'⟩ := taylor_body ho hb h1 (by omega)
      refine ⟨t', e, h'.congr fun i j _ _ => ?_⟩
      obtain ⟨k, rfl⟩ : ∃ l, k = l + 1 := ⟨k - 1, by omega⟩
      simp only [Nat.add_sub_cancel, taylorR, Finset.sum_range_succ]
      rw [add_assoc])
  exact ⟨t', e, h'⟩

theorem half_step (τ : ℝ) : (lit (1 / 2) : XR) *ᶠ .fin τ = .fin (τ / 2) := by
  rw [Ext.lit_eq, Ext.mul_fin]
  congr 1
  push_cast
  ring

/-- Taylor. -/
theorem advance_taylor {b : Quaternion ℝ} (ht : MatIs t 4 4 (fun i j => if i = j then lit 1 else lit 0))
    (ha : QuatIs att a) {order : Nat} (ho : order ≤ 20) (w x y z n : XR)
    (h0 : row (taylorR (fun i j => omegaR p q r i j * (τ / 2)) order) a 0 = b.re)
    (h1 : row (taylorR (fun i j => omegaR p q r i j * (τ / 2)) order) a 1 = b.imI)
    (h2 : row (taylorR (fun i j => omegaR p q r i j * (τ / 2)) order) a 2 = b.imJ)
    (h3 : row (taylorR (fun i j => omegaR p q r i j * (τ / 2)) order) a 3 = b.imK) :
    advance t v att (.fin τ) .TaylorSeries order (.fin p) (.fin q) (.fin r) n w x y z =
      .ok (comps b) := by
  obtain ⟨m, e1, k1⟩ := omega_fin p q r
  obtain ⟨m1, e2, k2⟩ := scale4 (τ / 2) k1
  obtain ⟨t1, e3, k3⟩ := taylor_run k2 (id_fin ht) ho
  unfold advance matrixStep
  simp only [e1, Res.mapErr_ok, Res.ok_bind, or_true, if_true, reduceCtorEq, if_false, half_step, e2,
    e3]
  exact tail_run k3 ha h0 h1 h2 h3

/-- Euler. -/
theorem advance_euler (hv : VecIs v 3 (seq3 (.fin p) (.fin q) (.fin r))) (ha : QuatIs att a)
    (order : Nat) (n : XR) :
    advance t v att (.fin τ) .Euler order (.fin p) (.fin q) (.fin r) n (.fin a.re) (.fin a.imI)
        (.fin a.imJ) (.fin a.imK) =
      .ok (comps (a + mkQ 0 (p * (τ / 2)) (q * (τ / 2)) (r * (τ / 2)) * a)) := by
  obtain ⟨m, e1, -⟩ := omega_fin p q r
  have e2 : exec v (Vec.reinit 4) = .ok { v with rows := 4 } :=
    exec_ok ((C07_vec v 4).2.1 hv.init (by omega) (by omega))
  have h2 : VecIs { v with rows := 4 } 4 (fun i => if h : i < 4 then v.elements ⟨i, h⟩ else .fin 0) := by
    rw [vecIs_iff]
    exact ⟨by omega, by omega, hv.init, rfl, fun i h4 hi => by simp [h4]⟩
  obtain ⟨v1, e3, h3⟩ := Quat.fillq_ok h2 (Ext.finite_fin (0 : ℝ)) (Ext.finite_fin p)
    (Ext.finite_fin q) (Ext.finite_fin r)
  obtain ⟨v2, e4, h4⟩ := Vec.exec_of_stores (Vec.mulByScalarInPlace_stores (x := .fin (τ / 2)) h3) h3
    (forall_lt_four.mpr ⟨Ext.finite_fin _, Ext.finite_fin _, Ext.finite_fin _, Ext.finite_fin _⟩)
  have h5 : QuatIs v2 (mkQ 0 (p * (τ / 2)) (q * (τ / 2)) (r * (τ / 2))) :=
    h4.congr (forall_lt_four.mpr ⟨by simp [seq4], by simp [seq4], by simp [seq4], by simp [seq4]⟩)
  obtain ⟨d, e6, h6⟩ := C34_hamilton h5 ha
  have e7 : exec (Vec.zeros 4 : Vec XR) (Quat.mul v2 att) = .ok d := by
    rw [C34_agree (Vec.zeros_is (by omega) (by omega)) h5 ha, e6]
  have e3' : exec { v with rows := 4 } (Quat.fillq (lit 0) (.fin p) (.fin q) (.fin r)) = .ok v1 := by
    rw [Ext.lit_zero]; exact exec_ok e3
  unfold advance eulerStep
  simp only [e1, e2, e3', e4, e7, Res.mapErr_ok, Res.ok_bind, reduceCtorEq, or_self, if_true, if_false,
    half_step, Vec.init_new (F := XR) (n := 4) (by omega) (by omega), Quat.getQw_eq h6,
    Quat.getQx_eq h6, Quat.getQy_eq h6, Quat.getQz_eq h6, Ext.add_fin]
  rfl

/-- Storing and normalising. -/
theorem store_run {s : AR XR} {f : Nat → XR} (h : VecIs s.attitude 4 f) (b : Quaternion ℝ) :
    ∃ v, store (comps b) s = (.ok (), { s with attitude := v }) ∧
      QuatIs v (if epsilon ℝ < ‖b‖ then ‖b‖⁻¹ • b else 0) := by
  obtain ⟨v1, e1, h1⟩ := Quat.fillq_ok h (Ext.finite_fin b.re) (Ext.finite_fin b.imI)
    (Ext.finite_fin b.imJ) (Ext.finite_fin b.imK)
  have h1' : VecIs v1 4 (fun i => .fin (seq4 b.re b.imI b.imJ b.imK i)) :=
    h1.congr (forall_lt_four.mpr ⟨rfl, rfl, rfl, rfl⟩)
  obtain ⟨v2, e2, h2⟩ := normalize_run h1'
  have hn : norm2 4 (seq4 b.re b.imI b.imJ b.imK) = ‖b‖ := by
    rw [quat_norm, norm2, Quaternion.normSq_def']
    simp [Finset.sum_range_succ, seq4]
  rw [hn] at h2
  refine ⟨v2, ?_, ?_⟩
  · unfold store comps
    rw [Op.bind_ok (onAttitude_ok e1), onAttitude_ok (s := { s with attitude := v1 }) e2]
  · refine h2.congr (forall_lt_four.mpr ?_)
    by_cases hb : epsilon ℝ < ‖b‖
    · simp [hb, seq4, div_eq_inv_mul]
    · simp only [if_neg hb]
      exact ⟨rfl, rfl, rfl, rfl⟩


/-- Seen through the API, the attitude of the filter is the quaternion `q`. -/
def Shows (s : AR XR) (q : Quaternion ℝ) : Prop := ∃ v, getAttitude s = .ok v ∧ QuatIs v q

theorem shows_of {s : AR XR} {q : Quaternion ℝ} (hi : s.initialized = true) (h : QuatIs s.attitude q) :
    Shows s q := by
  obtain ⟨d, h1, h2⟩ := Vec.duplicate_ok h (forall_lt_four.mpr ⟨Ext.finite_fin _, Ext.finite_fin _,
    Ext.finite_fin _, Ext.finite_fin _⟩)
  refine ⟨d, ?_, h2⟩
  unfold getAttitude
  rw [hi, h1]
  rfl

theorem Shows.quat {s : AR XR} {q : Quaternion ℝ} {f : Nat → XR} (hs : Shows s q) (h : Ready s f) :
    QuatIs s.attitude q := by
  obtain ⟨v, e, hv⟩ := hs
  obtain ⟨d, h1, h2⟩ := Vec.duplicate_ok h.attitude h.finite
  unfold getAttitude at e
  rw [h.initialized, h1] at e
  obtain rfl := Except.ok.inj e
  have : s.attitude = d := VecIs.ext4 h.attitude h2
  rw [this]
  exact hv

theorem Ready.shows {s : AR XR} {f : Nat → XR} (h : Ready s f) : ∃ q, Shows s q := by
  have hf := h.finite
  obtain ⟨w, hw⟩ := Ext.finite_iff.mp (hf 0 (by omega))
  obtain ⟨x, hx⟩ := Ext.finite_iff.mp (hf 1 (by omega))
  obtain ⟨y, hy⟩ := Ext.finite_iff.mp (hf 2 (by omega))
  obtain ⟨z, hz⟩ := Ext.finite_iff.mp (hf 3 (by omega))
  exact ⟨mkQ w x y z, shows_of h.initialized
    (h.attitude.congr (forall_lt_four.mpr ⟨hw, hx, hy, hz⟩))⟩

theorem Shows.unique {s : AR XR} {q q' : Quaternion ℝ} (h : Shows s q) (h' : Shows s q') : q = q' := by
  obtain ⟨v, e, hv⟩ := h
  obtain ⟨v', e', hv'⟩ := h'
  rw [e] at e'
  obtain rfl := Except.ok.inj e'
  exact hv.unique hv'

theorem config_fin_inj {d d' : GyrometerConfig ℝ} (h : d.fin = d'.fin) : d = d' := by
  cases d; cases d'
  simp only [GyrometerConfig.fin, Gyrometer.ofParam, Gyrometer.param, GyrometerConfig.mk.injEq, Ext.fin_inj] at h
  simp only [GyrometerConfig.mk.injEq]
  exact h

variable {s s' : AR XR} {f : Nat → XR} {A b : Quaternion ℝ} {d : GyrometerConfig ℝ} {i : ARInit XR}

/-- The corrected rates and their norm. -/
theorem Ready.rates (h : Ready s f) (hc : Gyrometer.getConfig s.gyr = .ok d.fin) (x y z : ℝ) :
    ∃ g, Gyrometer.update (.fin x) (.fin y) (.fin z) s.gyr = (.ok (), g) ∧
      g.getX = .ok (.fin (d.rate x y z).imI) ∧ g.getY = .ok (.fin (d.rate x y z).imJ) ∧
      g.getZ = .ok (.fin (d.rate x y z).imK) ∧
      ∃ w : Vec XR, VecIs w 3 (seq3 (.fin (d.rate x y z).imI) (.fin (d.rate x y z).imJ)
        (.fin (d.rate x y z).imK)) ∧
        w.calculateNorm = .ok (.fin (if ‖d.rate x y z‖ ≤ epsilon ℝ then 0 else ‖d.rate x y z‖)) := by
  obtain ⟨d', g, h1, h2, h3, h4, h5⟩ := C43_gyr_exact h.gyr h.gyr_initialized x y z
  rw [hc] at h1
  obtain rfl := config_fin_inj (Except.ok.inj h1)
  obtain ⟨-, -, w, -, -, -, hw⟩ := vector3 (F := XR) (Ext.finite_fin (d.rate x y z).imI)
    (Ext.finite_fin (d.rate x y z).imJ) (Ext.finite_fin (d.rate x y z).imK)
  refine ⟨g, h2, h3, h4, h5, w, hw, ?_⟩
  have hw' : VecIs w 3 (fun k => .fin (seq3 (d.rate x y z).imI (d.rate x y z).imJ
      (d.rate x y z).imK k)) := hw.congr (forall_lt_three.mpr ⟨rfl, rfl, rfl⟩)
  have hn : norm2 3 (seq3 (d.rate x y z).imI (d.rate x y z).imJ (d.rate x y z).imK) =
      ‖d.rate x y z‖ := by
    rw [quat_norm, norm2, Quaternion.normSq_def']
    simp [Finset.sum_range_succ, seq3, GyrometerConfig.rate]
  rw [C31_norm hw', hn]

/-- An update above the threshold. -/
theorem Ready.moving (h : Ready s f) (hA : Shows s A) (hc : Gyrometer.getConfig s.gyr = .ok d.fin)
    (x y z : ℝ) (hm : epsilon ℝ < ‖d.rate x y z‖)
    (hb : ∀ t v, MatIs t 4 4 (fun i j => if i = j then lit 1 else lit 0) →
      VecIs v 3 (seq3 (.fin (d.rate x y z).imI) (.fin (d.rate x y z).imJ) (.fin (d.rate x y z).imK)) →
      advance t v s.attitude s.ts s.method s.order (.fin (d.rate x y z).imI)
        (.fin (d.rate x y z).imJ) (.fin (d.rate x y z).imK) (.fin ‖d.rate x y z‖) (.fin A.re)
        (.fin A.imI) (.fin A.imJ) (.fin A.imK) = .ok (comps b)) :
    ∃ s', AR.update (.fin x) (.fin y) (.fin z) s = (.ok (), s') ∧
      Shows s' (if epsilon ℝ < ‖b‖ then ‖b‖⁻¹ • b else 0) := by
  obtain ⟨g, h1, h2, h3, h4, w, hw, hn⟩ := h.rates hc x y z
  rw [if_neg (not_le.mpr hm)] at hn
  have hq := hA.quat h
  have hr : Ready s (seq4 (.fin A.re) (.fin A.imI) (.fin A.imJ) (.fin A.imK)) :=
    ⟨h.initialized, h.gyr_initialized, h.gyr, hq, forall_lt_four.mpr ⟨Ext.finite_fin _,
      Ext.finite_fin _, Ext.finite_fin _, Ext.finite_fin _⟩⟩
  obtain ⟨t, v, ht, hv, e⟩ := hr.update_run h1 h2 h3 h4 (Ext.finite_fin _) (Ext.finite_fin _)
    (Ext.finite_fin _) hw hn
  have hbig : ((.fin ‖d.rate x y z‖ : XR) >ᶠ EPSILON) = true := by
    rw [Ext.epsilon_eq, Ext.lt_fin]; exact decide_eq_true hm
  rw [if_pos hbig, Op.liftM_bind_run] at e
  have hb' := hb t v ht hv
  simp only [seq4] at e
  rw [hb'] at e
  obtain ⟨u, e2, hu⟩ := store_run (s := { s with gyr := g }) h.attitude b
  rw [e]
  exact ⟨_, e2, shows_of h.initialized hu⟩

/-- An update at or below the threshold. -/
theorem Ready.stays (h : Ready s f) (hA : Shows s A) (hc : Gyrometer.getConfig s.gyr = .ok d.fin)
    (x y z : ℝ) (hm : ‖d.rate x y z‖ ≤ epsilon ℝ) :
    ∃ s', AR.update (.fin x) (.fin y) (.fin z) s = (.ok (), s') ∧ Shows s' A := by
  obtain ⟨g, h1, h2, h3, h4, w, hw, hn⟩ := h.rates hc x y z
  rw [if_pos hm] at hn
  obtain ⟨t, v, ht, hv, e⟩ := h.update_run h1 h2 h3 h4 (Ext.finite_fin _) (Ext.finite_fin _)
    (Ext.finite_fin _) hw hn
  have he := Linalg.eps_pos (K := ℝ)
  have hsm : ((.fin 0 : XR) >ᶠ EPSILON) = false := by
    rw [Ext.epsilon_eq, Ext.lt_fin]; exact decide_eq_false (not_lt.mpr he.le)
  rw [hsm] at e
  exact ⟨_, e, shows_of h.initialized (hA.quat h)⟩

/-! ### The three methods -/

theorem eps_lt_one : epsilon ℝ < 1 := by unfold epsilon; norm_num

theorem normalised {b : Quaternion ℝ} (h : ‖b‖ = 1) :
    (if epsilon ℝ < ‖b‖ then ‖b‖⁻¹ • b else 0) = b := by
  rw [h, if_pos eps_lt_one]
  simp

theorem rate_re (x y z : ℝ) : (d.rate x y z).re = 0 := rfl

/-- The quaternion that the closed form multiplies with. -/
theorem rotation_eq {ω : Quaternion ℝ} (hω : ω.re = 0) (h : ‖ω‖ ≠ 0) (τ : ℝ) :
    mkQ (Real.cos (‖ω‖ * τ / 2)) (ω.imI * (Real.sin (‖ω‖ * τ / 2) / ‖ω‖))
      (ω.imJ * (Real.sin (‖ω‖ * τ / 2) / ‖ω‖)) (ω.imK * (Real.sin (‖ω‖ * τ / 2) / ‖ω‖)) =
    NormedSpace.exp ((τ / 2) • ω) := by
  have h0 : ((τ / 2) • ω).re = 0 := by simp [hω]
  rw [Quaternion.exp_of_re_eq_zero _ h0]
  have hn : ‖(τ / 2) • ω‖ = |τ / 2| * ‖ω‖ := by rw [norm_smul, Real.norm_eq_abs]
  have hsin : Real.sin (|τ / 2| * ‖ω‖) / (|τ / 2| * ‖ω‖) * (τ / 2) =
      Real.sin (‖ω‖ * τ / 2) / ‖ω‖ := by
    rcases lt_trichotomy τ 0 with ht | ht | ht
    · rw [abs_of_neg (by linarith), show -(τ / 2) * ‖ω‖ = -(‖ω‖ * τ / 2) by ring, Real.sin_neg]
      have : τ ≠ 0 := ht.ne
      field_simp
    · simp [ht]
    · rw [abs_of_pos (by linarith), show (τ / 2) * ‖ω‖ = (‖ω‖ * τ / 2) by ring]
      have : τ ≠ 0 := ht.ne'
      field_simp
  have hcos : Real.cos (|τ / 2| * ‖ω‖) = Real.cos (‖ω‖ * τ / 2) := by
    rw [show ‖ω‖ * τ / 2 = τ / 2 * ‖ω‖ by ring]
    rcases abs_choice (τ / 2) with h | h <;> rw [h]
    rw [neg_mul, Real.cos_neg]
  rw [hn, hcos, smul_smul, hsin]
  ext <;> simp [hω, mul_comm]

theorem norm_rotation {ω : Quaternion ℝ} (hω : ω.re = 0) (τ : ℝ) :
    ‖NormedSpace.exp ((τ / 2) • ω)‖ = 1 := by
  rw [Quaternion.norm_exp]
  simp [hω]

/-- The norm of a step of Euler's method. -/
theorem one_le_norm_step {ω : Quaternion ℝ} (hω : ω.re = 0) (c : ℝ) : 1 ≤ ‖(1 + c • ω : Quaternion ℝ)‖ := by
  rw [quat_norm, Real.one_le_sqrt, Quaternion.normSq_def']
  rw [Quaternion.re_add, Quaternion.imI_add, Quaternion.imJ_add, Quaternion.imK_add,
    Quaternion.re_smul, hω, Quaternion.re_one, Quaternion.imI_one, Quaternion.imJ_one, Quaternion.imK_one,
    smul_zero, add_zero, one_pow]
  nlinarith [sq_nonneg (0 + (c • ω).imI), sq_nonneg (0 + (c • ω).imJ), sq_nonneg (0 + (c • ω).imK)]

end AR

open AR

variable {s s' s1 : AR XR} {A : Quaternion ℝ} {d : GyrometerConfig ℝ} {i i' : ARInit XR} {τ x y z : ℝ}

/-! ### C49: the closed form -/

/-- C49: a closed-form update multiplies a unit attitude on the right by the rotation quaternion
`exp (τ/2 · ω)` of angle `τ‖ω‖` around the corrected rate `ω`. -/
theorem C49_closed (hs : Started i s) (hm : i.method = .ClosedForm) (hc : i.config = d.fin)
    (ht : i.ts = .fin τ) (hA : Shows s A) (hu : ‖A‖ = 1) (hmov : epsilon ℝ < ‖d.rate x y z‖) :
    ∃ s', update (.fin x) (.fin y) (.fin z) s = (.ok (), s') ∧
      Shows s' (A * NormedSpace.exp ((τ / 2) • d.rate x y z)) := by
  obtain ⟨⟨f, h⟩, h1, h2, h3, h4⟩ := hs.ready
  have hn : ‖d.rate x y z‖ ≠ 0 := (Linalg.eps_pos.trans hmov).ne'
  have hb : ‖A * NormedSpace.exp ((τ / 2) • d.rate x y z)‖ = 1 := by
    rw [norm_mul, hu, norm_rotation rfl, one_mul]
  rw [← normalised hb]
  refine h.moving hA (h4.trans (by rw [hc])) x y z hmov fun t v htt hv => ?_
  rw [h1, h2, hm, ht, advance_closed htt (hA.quat h) hn, rotation_eq rfl hn]

/-- C49: that is the exact solution: the attitude reached is the value at time `τ` of a curve that
starts at the previous attitude and satisfies the kinematic equation `q' = 1/2 q ω`. -/
theorem C49_ode (hs : Started i s) (hm : i.method = .ClosedForm) (hc : i.config = d.fin)
    (ht : i.ts = .fin τ) (hA : Shows s A) (hu : ‖A‖ = 1) (hmov : epsilon ℝ < ‖d.rate x y z‖) :
    ∃ (c : ℝ → Quaternion ℝ) (s' : AR XR), c 0 = A ∧
      (∀ t, HasDerivAt c ((1 / 2 : ℝ) • (c t * d.rate x y z)) t) ∧
      update (.fin x) (.fin y) (.fin z) s = (.ok (), s') ∧ Shows s' (c τ) := by
  obtain ⟨s', e, h⟩ := C49_closed hs hm hc ht hA hu hmov
  refine ⟨fun t => A * NormedSpace.exp (t • ((1 / 2 : ℝ) • d.rate x y z)), s', by simp, fun t => ?_, e, ?_⟩
  · have := HasDerivAt.const_mul A (hasDerivAt_exp_smul_const (𝕂 := ℝ) ((1 / 2 : ℝ) • d.rate x y z) t)
    rw [mul_smul_comm, mul_smul_comm, ← mul_assoc] at this
    exact this
  · simpa [smul_smul, div_eq_mul_inv] using h

/-- The filter after `k` updates with the same sample. -/
noncomputable def AR.again (x y z : ℝ) (s : AR XR) : ℕ → AR XR
  | 0 => s
  | k + 1 => (update (.fin x) (.fin y) (.fin z) (AR.again x y z s k)).2

theorem AR.Started.update (h : Started i s) (gx gy gz : XR) : Started i (AR.update gx gy gz s).2 := by
  obtain ⟨s0, s1, h0, e, hl⟩ := h
  exact ⟨s0, s1, h0, e, .step (.update gx gy gz) hl⟩

/-- C49: `k` updates with the same rate amount to one of `k` times the duration, at any rate. -/
theorem C49_steps (hs : Started i s) (hm : i.method = .ClosedForm) (hc : i.config = d.fin)
    (ht : i.ts = .fin τ) (hA : Shows s A) (hu : ‖A‖ = 1) (hmov : epsilon ℝ < ‖d.rate x y z‖) (k : ℕ) :
    Shows (AR.again x y z s k) (A * NormedSpace.exp ((k * τ / 2) • d.rate x y z)) := by
  have : Started i (AR.again x y z s k) ∧
      Shows (AR.again x y z s k) (A * NormedSpace.exp ((k * τ / 2) • d.rate x y z)) := by
    induction k with
    | zero => simpa using ⟨hs, hA⟩
    | succ k ih =>
      obtain ⟨ih1, ih2⟩ := ih
      refine ⟨ih1.update _ _ _, ?_⟩
      have hu' : ‖A * NormedSpace.exp ((k * τ / 2) • d.rate x y z)‖ = 1 := by
        rw [norm_mul, hu, norm_rotation rfl, one_mul]
      obtain ⟨s', e, h⟩ := C49_closed ih1 hm hc ht ih2 hu' hmov
      rw [AR.again, e]
      have he : ((((k + 1 : ℕ) : ℝ) * τ / 2) • d.rate x y z) =
          (k * τ / 2) • d.rate x y z + (τ / 2) • d.rate x y z := by
        rw [← add_smul]; congr 1; push_cast; ring
      let _ : NormedAlgebra ℚ (Quaternion ℝ) := .restrictScalars ℚ ℝ (Quaternion ℝ)
      rw [he, NormedSpace.exp_add_of_commute (((Commute.refl (d.rate x y z)).smul_left _).smul_right _),
        ← mul_assoc]
      exact h
  exact this.2

/-- C49: in particular two updates of a filter with half the time step reach the attitude that one
update of a filter with the full time step reaches. -/
theorem C49_halves {s2 : AR XR} (hs : Started i s) (hs2 : Started i' s2) (hm : i.method = .ClosedForm)
    (hm' : i'.method = .ClosedForm) (hc : i.config = d.fin) (hc' : i'.config = d.fin)
    (ht : i.ts = .fin τ) (ht' : i'.ts = .fin (τ / 2)) (hA : Shows s A) (hA' : Shows s2 A)
    (hu : ‖A‖ = 1) (hmov : epsilon ℝ < ‖d.rate x y z‖) :
    getAttitude (update (.fin x) (.fin y) (.fin z) s).2 =
      getAttitude (update (.fin x) (.fin y) (.fin z) (update (.fin x) (.fin y) (.fin z) s2).2).2 := by
  have h1 := C49_steps hs hm hc ht hA hu hmov 1
  have h2 := C49_steps hs2 hm' hc' ht' hA' hu hmov 2
  simp only [AR.again] at h1 h2
  have e : ((1 : ℕ) : ℝ) * τ / 2 = ((2 : ℕ) : ℝ) * (τ / 2) / 2 := by push_cast; ring
  rw [e] at h1
  obtain ⟨v1, e1, k1⟩ := h1
  obtain ⟨v2, e2, k2⟩ := h2
  rw [e1, e2, k1.ext k2]

/-! ### C50: Euler and first-order Taylor -/

/-- C50: the Euler update applies the rate on the left of the attitude. -/
theorem C50_euler (hs : Started i s) (hm : i.method = .Euler) (hc : i.config = d.fin)
    (ht : i.ts = .fin τ) (hA : Shows s A) (hu : ‖A‖ = 1) (hmov : epsilon ℝ < ‖d.rate x y z‖) :
    ∃ s', update (.fin x) (.fin y) (.fin z) s = (.ok (), s') ∧
      Shows s' (‖A + (τ / 2) • (d.rate x y z * A)‖⁻¹ • (A + (τ / 2) • (d.rate x y z * A))) := by
  obtain ⟨⟨f, h⟩, h1, h2, h3, h4⟩ := hs.ready
  have hb : epsilon ℝ < ‖A + (τ / 2) • (d.rate x y z * A)‖ := by
    have e : A + (τ / 2) • (d.rate x y z * A) = (1 + (τ / 2) • d.rate x y z) * A := by
      rw [add_mul, one_mul, smul_mul_assoc]
    rw [e, norm_mul, hu, mul_one]
    exact lt_of_lt_of_le eps_lt_one (one_le_norm_step rfl _)
  rw [← if_pos (α := Quaternion ℝ) (t := ‖A + (τ / 2) • (d.rate x y z * A)‖⁻¹ • (A + (τ / 2) • (d.rate x y z * A))) (e := 0) hb]
  refine h.moving hA (h4.trans (by rw [hc])) x y z hmov fun t v htt hv => ?_
  rw [h1, h2, hm, ht, advance_euler hv (hA.quat h)]
  congr 3
  rw [← smul_mul_assoc]
  congr 1
  ext <;> simp [rate_re, mul_comm]

/-- C50: the first-order Taylor update applies it on the right. -/
theorem C50_taylor (hs : Started i s) (hm : i.method = .TaylorSeries) (ho : i.order = 1)
    (hc : i.config = d.fin) (ht : i.ts = .fin τ) (hA : Shows s A) (hu : ‖A‖ = 1)
    (hmov : epsilon ℝ < ‖d.rate x y z‖) :
    ∃ s', update (.fin x) (.fin y) (.fin z) s = (.ok (), s') ∧
      Shows s' (‖A + (τ / 2) • (A * d.rate x y z)‖⁻¹ • (A + (τ / 2) • (A * d.rate x y z))) := by
  obtain ⟨⟨f, h⟩, h1, h2, h3, h4⟩ := hs.ready
  have hb : epsilon ℝ < ‖A + (τ / 2) • (A * d.rate x y z)‖ := by
    have e : A + (τ / 2) • (A * d.rate x y z) = A * (1 + (τ / 2) • d.rate x y z) := by
      rw [mul_add, mul_one, mul_smul_comm]
    rw [e, norm_mul, hu, one_mul]
    exact lt_of_lt_of_le eps_lt_one (one_le_norm_step rfl _)
  rw [← if_pos (α := Quaternion ℝ) (t := ‖A + (τ / 2) • (A * d.rate x y z)‖⁻¹ • (A + (τ / 2) • (A * d.rate x y z))) (e := 0) hb]
  refine h.moving hA (h4.trans (by rw [hc])) x y z hmov fun t v htt hv => ?_
  rw [h1, h2, hm, ht, h3, ho]
  refine advance_taylor htt (hA.quat h) (by omega) _ _ _ _ _ ?_ ?_ ?_ ?_
  all_goals simp [row, taylorR, idR, omegaR, seq4, rate_re]
  all_goals ring

/-- C50: the two methods therefore give the same attitude only when the rate commutes with the
attitude. -/
theorem C50_same_iff {s2 : AR XR} (hs : Started i s) (hs2 : Started i' s2) (hm : i.method = .Euler)
    (hm' : i'.method = .TaylorSeries) (ho : i'.order = 1) (hc : i.config = d.fin)
    (hc' : i'.config = d.fin) (ht : i.ts = .fin τ) (ht' : i'.ts = .fin τ) (hτ : τ ≠ 0)
    (hA : Shows s A) (hA' : Shows s2 A) (hu : ‖A‖ = 1) (hmov : epsilon ℝ < ‖d.rate x y z‖) :
    getAttitude (update (.fin x) (.fin y) (.fin z) s).2 =
      getAttitude (update (.fin x) (.fin y) (.fin z) s2).2 ↔
    d.rate x y z * A = A * d.rate x y z := by
  obtain ⟨t1, e1, v1, k1, l1⟩ := C50_euler hs hm hc ht hA hu hmov
  obtain ⟨t2, e2, v2, k2, l2⟩ := C50_taylor hs2 hm' ho hc' ht' hA' hu hmov
  rw [e1, e2, k1, k2]
  have hn : ‖A + (τ / 2) • (d.rate x y z * A)‖ = ‖A + (τ / 2) • (A * d.rate x y z)‖ := by
    have h1 : A + (τ / 2) • (d.rate x y z * A) = (1 + (τ / 2) • d.rate x y z) * A := by
      rw [add_mul, one_mul, smul_mul_assoc]
    have h2 : A + (τ / 2) • (A * d.rate x y z) = A * (1 + (τ / 2) • d.rate x y z) := by
      rw [mul_add, mul_one, mul_smul_comm]
    rw [h1, h2, norm_mul, norm_mul, mul_comm]
  have h0 : ‖A + (τ / 2) • (A * d.rate x y z)‖ ≠ 0 := by
    have h2 : A + (τ / 2) • (A * d.rate x y z) = A * (1 + (τ / 2) • d.rate x y z) := by
      rw [mul_add, mul_one, mul_smul_comm]
    rw [h2, norm_mul, hu, one_mul]
    exact (lt_of_lt_of_le one_pos (one_le_norm_step rfl _)).ne'
  constructor
  · intro h
    obtain rfl := Except.ok.inj h
    have := l1.unique l2
    rw [hn] at this
    have h3 := smul_right_injective _ (inv_ne_zero h0) this
    have h4 := add_left_cancel h3
    exact smul_right_injective _ (div_ne_zero hτ two_ne_zero) h4
  · intro h
    rw [h] at l1
    rw [l1.ext l2]

/-! ### C48: unit attitudes -/

/-- C48: from a unit attitude, an update with any finite sample succeeds and leaves a unit attitude, for
the closed form, Euler's method and the first-order Taylor series. -/
theorem C48_step (hs : Started i s) (hc : i.config = d.fin) (ht : i.ts = .fin τ)
    (hm : i.method = .ClosedForm ∨ i.method = .Euler ∨ i.method = .TaylorSeries ∧ i.order = 1)
    (hA : Shows s A) (hu : ‖A‖ = 1) (x y z : ℝ) :
    ∃ s' B, update (.fin x) (.fin y) (.fin z) s = (.ok (), s') ∧ Shows s' B ∧ ‖B‖ = 1 := by
  have unit : ∀ b : Quaternion ℝ, b ≠ 0 → ‖(‖b‖⁻¹ • b : Quaternion ℝ)‖ = 1 := fun b hb => by
    rw [norm_smul, norm_inv, norm_norm, inv_mul_cancel₀ (norm_ne_zero_iff.mpr hb)]
  by_cases hmov : epsilon ℝ < ‖d.rate x y z‖
  · rcases hm with hm | hm | ⟨hm, ho⟩
    · obtain ⟨s', e, h⟩ := C49_closed hs hm hc ht hA hu hmov
      exact ⟨s', _, e, h, by rw [norm_mul, hu, norm_rotation rfl, one_mul]⟩
    · obtain ⟨s', e, h⟩ := C50_euler hs hm hc ht hA hu hmov
      refine ⟨s', _, e, h, unit _ fun h0 => ?_⟩
      have e : A + (τ / 2) • (d.rate x y z * A) = (1 + (τ / 2) • d.rate x y z) * A := by
        rw [add_mul, one_mul, smul_mul_assoc]
      have := congrArg norm h0
      rw [e, norm_mul, hu, mul_one, norm_zero] at this
      linarith [one_le_norm_step (ω := d.rate x y z) rfl (τ / 2)]
    · obtain ⟨s', e, h⟩ := C50_taylor hs hm ho hc ht hA hu hmov
      refine ⟨s', _, e, h, unit _ fun h0 => ?_⟩
      have e : A + (τ / 2) • (A * d.rate x y z) = A * (1 + (τ / 2) • d.rate x y z) := by
        rw [mul_add, mul_one, mul_smul_comm]
      have := congrArg norm h0
      rw [e, norm_mul, hu, one_mul, norm_zero] at this
      linarith [one_le_norm_step (ω := d.rate x y z) rfl (τ / 2)]
  · obtain ⟨⟨f, h⟩, -, -, -, h4⟩ := hs.ready
    obtain ⟨s', e, h⟩ := h.stays hA (h4.trans (by rw [hc])) x y z (not_lt.mp hmov)
    exact ⟨s', A, e, h, hu⟩

/-- C48: after a successful `init` with a unit quaternion, the attitude is a unit quaternion in every
later history of calls, including calls that fail. -/
theorem C48_unit {w x y z : ℝ} (hs : Started i s) (hc : i.config = d.fin) (ht : i.ts = .fin τ)
    (hm : i.method = .ClosedForm ∨ i.method = .Euler ∨ i.method = .TaylorSeries ∧ i.order = 1)
    (hw : i.qw = .fin w) (hx : i.qx = .fin x) (hy : i.qy = .fin y) (hz : i.qz = .fin z)
    (hu : w ^ 2 + x ^ 2 + y ^ 2 + z ^ 2 = 1) : ∃ A, Shows s A ∧ ‖A‖ = 1 := by
  obtain ⟨s0, s1, h0, e, hl⟩ := hs
  induction hl with
  | refl =>
    obtain ⟨v, ev, hv⟩ := C46_attitude h0 e
    rw [hw, hx, hy, hz] at hv
    exact ⟨mkQ w x y z, ⟨v, ev, hv⟩, by rw [quat_norm, normSq_mkQ, hu, Real.sqrt_one]⟩
  | @step s k hl ih =>
    obtain ⟨A, hA, hA1⟩ := ih
    have hs : Started i s := ⟨s0, s1, h0, e, hl⟩
    cases k with
    | init b =>
      show ∃ A, Shows (initWith b s).2 A ∧ _
      rw [C46_once hs]
      exact ⟨A, hA, hA1⟩
    | update gx gy gz =>
      show ∃ A, Shows (update gx gy gz s).2 A ∧ _
      rcases hr : (Gyrometer.update gx gy gz s.gyr).1 with e' | ⟨⟩
      · obtain ⟨-, -, e3⟩ := C47_rejected hs hr
        obtain ⟨v, ev, hv⟩ := hA
        exact ⟨A, ⟨v, e3.trans ev, hv⟩, hA1⟩
      · obtain ⟨⟨f, h⟩, -, -, -, h4⟩ := hs.ready
        obtain ⟨⟨f1, f2, f3⟩, -⟩ := (C43_gyr_iff h.gyr h4).mp hr
        obtain ⟨a, rfl⟩ := Ext.finite_iff.mp f1
        obtain ⟨b, rfl⟩ := Ext.finite_iff.mp f2
        obtain ⟨c, rfl⟩ := Ext.finite_iff.mp f3
        obtain ⟨s', B, e', hB, hB1⟩ := C48_step hs hc ht hm hA hA1 a b c
        rw [e']
        exact ⟨B, hB, hB1⟩

/-- C48: whatever the method, the order, the time step and the attitude before, a successful update
above the threshold leaves a unit quaternion or zero. -/
theorem C48_any (hs : Started i s) (hc : i.config = d.fin) (hmov : epsilon ℝ < ‖d.rate x y z‖)
    (h : update (.fin x) (.fin y) (.fin z) s = (.ok (), s')) :
    ∃ B, Shows s' B ∧ (‖B‖ = 1 ∨ B = 0) := by
  obtain ⟨⟨f, hr⟩, -, -, -, h4⟩ := hs.ready
  rw [hc] at h4
  obtain ⟨g, h1, h2, h3, h5, w, hw, hn⟩ := hr.rates h4 x y z
  rw [if_neg (not_le.mpr hmov)] at hn
  obtain ⟨t, v, ht, hv, e⟩ := hr.update_run h1 h2 h3 h5 (Ext.finite_fin _) (Ext.finite_fin _)
    (Ext.finite_fin _) hw hn
  have hbig : ((.fin ‖d.rate x y z‖ : XR) >ᶠ EPSILON) = true := by
    rw [Ext.epsilon_eq, Ext.lt_fin]; exact decide_eq_true hmov
  rw [if_pos hbig, Op.liftM_bind_run, h] at e
  revert e
  rcases advance t v s.attitude s.ts s.method s.order (.fin (d.rate x y z).imI)
    (.fin (d.rate x y z).imJ) (.fin (d.rate x y z).imK) (.fin ‖d.rate x y z‖) (f 0) (f 1) (f 2) (f 3)
    with e | q
  · intro e
    cases congrArg Prod.fst e
  · intro e
    have hst := Quat.storeAll_stores (w := q.1) (x := q.2.1) (y := q.2.2.1) (z := q.2.2.2) hr.attitude
    rw [← Quat.fillq_eq hr.attitude] at hst
    rcases hst.cases with ⟨hf, -⟩ | ⟨k, -, -, hb, e2⟩
    · obtain ⟨f0, f1, f2, f3⟩ := forall_lt_four.mp hf
      obtain ⟨b0, e0⟩ := Ext.finite_iff.mp f0
      obtain ⟨b1, e1⟩ := Ext.finite_iff.mp f1
      obtain ⟨b2, e2⟩ := Ext.finite_iff.mp f2
      obtain ⟨b3, e3⟩ := Ext.finite_iff.mp f3
      have hq : q = comps (mkQ b0 b1 b2 b3) := by
        obtain ⟨q0, q1, q2, q3⟩ := q
        simp only [seq4] at e0 e1 e2 e3
        rw [e0, e1, e2, e3]
        rfl
      obtain ⟨u, e2, hu⟩ := store_run (s := { s with gyr := g }) hr.attitude (mkQ b0 b1 b2 b3)
      have e3 : (Except.ok (), s') = AR.store q { s with gyr := g } := e
      rw [hq, e2] at e3
      obtain rfl := congrArg Prod.snd e3
      refine ⟨_, shows_of hr.initialized hu, ?_⟩
      split
      · rename_i hb
        left
        rw [norm_smul, norm_inv, norm_norm, inv_mul_cancel₀ (Linalg.eps_pos.trans hb).ne']
      · exact .inr rfl
    · have e3 : (Except.ok (), s') = AR.store q { s with gyr := g } := e
      unfold AR.store at e3
      rw [Op.bind_err (onAttitude_err (s := { s with gyr := g }) e2)] at e3
      cases congrArg Prod.fst e3

/-! ### C51: the order of the Taylor series -/

/-- C51: up to 20 the factorial is the factorial. -/
theorem C51_factorial (F : Type) [Scalar F] {ε : Type} {n : Nat} (h : n ≤ 20) :
    (Utils.factorial F n : Res ε Nat) = .ok (Nat.factorial n) := factorial_ok F h

/-- C51: from 21 on it overflows; a build with overflow checks panics. -/
theorem C51_overflow (F : Type) [Scalar F] {ε : Type} (hov : Scalar.overflowChecks F = true) :
    ∀ {n : Nat}, 21 ≤ n → (Utils.factorial F n : Res ε Nat) = .error .panic := by
  intro n hn
  induction n, hn using Nat.le_induction with
  | base =>
    unfold Utils.factorial
    rw [factorial_ok F (le_refl 20)]
    show u64Mul F 21 (Nat.factorial 20) = _
    unfold u64Mul
    rw [if_neg (by decide +kernel), if_pos hov]
  | succ n hn ih =>
    obtain ⟨m, rfl⟩ : ∃ m, n = m + 1 := ⟨n - 1, by omega⟩
    unfold Utils.factorial
    rw [ih]
    rfl

/-- C51: a build without them returns the factorial modulo 2⁶⁴ — which is 0 from 66 on. -/
theorem C51_wraps (F : Type) [Scalar F] {ε : Type} (hov : Scalar.overflowChecks F = false) :
    ∀ n : Nat, (Utils.factorial F n : Res ε Nat) = .ok (Nat.factorial n % 2 ^ 64)
  | 0 => rfl
  | 1 => rfl
  | n + 2 => by
    unfold Utils.factorial
    rw [C51_wraps F hov (n + 1)]
    show u64Mul F (n + 2) (Nat.factorial (n + 1) % 2 ^ 64) = _
    have e : Nat.factorial (n + 2) % 2 ^ 64 = (n + 2) * (Nat.factorial (n + 1) % 2 ^ 64) % 2 ^ 64 := by
      rw [Nat.factorial_succ, Nat.mul_mod_mod]
    unfold u64Mul
    split
    · rename_i hlt
      rw [e, Nat.mod_eq_of_lt hlt]
    · rw [hov, e]
      rfl

theorem C51_vanishes (F : Type) [Scalar F] {ε : Type} (hov : Scalar.overflowChecks F = false) {n : Nat}
    (h : 66 ≤ n) : (Utils.factorial F n : Res ε Nat) = .ok 0 := by
  rw [C51_wraps F hov]
  congr 1
  exact Nat.mod_eq_zero_of_dvd (dvd_trans (by decide +kernel) (Nat.factorial_dvd_factorial h))

theorem foldRange_split {ε β : Type} (body : Nat → β → Res ε β) (lo mid hi : Nat) (h1 : lo ≤ mid)
    (h2 : mid ≤ hi) (b : β) :
    foldRange lo hi body b = (foldRange lo mid body b >>= foldRange mid hi body) := by
  unfold foldRange
  obtain ⟨k, rfl⟩ : ∃ k, mid = lo + k := ⟨mid - lo, by omega⟩
  rw [Nat.add_sub_cancel_left]
  induction k generalizing lo b with
  | zero => rfl
  | succ k ih =>
    obtain ⟨l, hl⟩ : ∃ l, hi - lo = l + 1 := ⟨hi - lo - 1, by omega⟩
    have step : ∀ n, foldFrom lo (n + 1) body b = (body lo b >>= foldFrom (lo + 1) n body) := fun n => by
      rw [foldFrom]
      cases body lo b <;> rfl
    rw [hl, step, step]
    rcases body lo b with e | b'
    · rfl
    · have := ih (lo + 1) b' (by omega) (by omega)
      rw [show hi - (lo + 1) = l by omega, show lo + 1 + k = lo + (k + 1) by omega] at this
      exact this

/-- C51: a Taylor update of order at least 21 with a rate above the threshold panics (the exact
arithmetic carries the overflow checks of a debug build). -/
theorem C51_panics (hs : Started i s) (hm : i.method = .TaylorSeries) (ho : 21 ≤ i.order)
    (hc : i.config = d.fin) (ht : i.ts = .fin τ) (hmov : epsilon ℝ < ‖d.rate x y z‖) :
    (update (.fin x) (.fin y) (.fin z) s).1 = .error .panic := by
  obtain ⟨⟨f, hr⟩, h1', h2', h3', h4⟩ := hs.ready
  rw [hc] at h4
  obtain ⟨g, h1, h2, h3, h5, w, hw, hn⟩ := hr.rates h4 x y z
  rw [if_neg (not_le.mpr hmov)] at hn
  obtain ⟨t, v, htt, hv, e⟩ := hr.update_run h1 h2 h3 h5 (Ext.finite_fin _) (Ext.finite_fin _)
    (Ext.finite_fin _) hw hn
  have hbig : ((.fin ‖d.rate x y z‖ : XR) >ᶠ EPSILON) = true := by
    rw [Ext.epsilon_eq, Ext.lt_fin]; exact decide_eq_true hmov
  rw [e, if_pos hbig, Op.liftM_bind_run, h1', h2', h3', hm, ht]
  obtain ⟨m, e1, k1⟩ := omega_fin (d.rate x y z).imI (d.rate x y z).imJ (d.rate x y z).imK
  obtain ⟨m1, e2, k2⟩ := scale4 (τ / 2) k1
  obtain ⟨t1, e3, k3⟩ := taylor_run k2 (id_fin htt) (le_refl 20)
  have hloop : taylorLoop m1 t i.order = .error .panic := by
    unfold taylorLoop at e3 ⊢
    rw [foldRange_split _ 1 21 (i.order + 1) (by omega) (by omega), e3, Res.ok_bind]
    unfold foldRange
    obtain ⟨k, hk⟩ : ∃ k, i.order + 1 - 21 = k + 1 := ⟨i.order - 21, by omega⟩
    rw [hk]
    unfold foldFrom
    obtain ⟨s2, e4, hs2⟩ := Mat.duplicate_ok k2 (fun _ _ _ _ => Ext.finite_fin _)
    obtain ⟨s3, e5, hs3⟩ := Mat.exec_of_stores (Mat.powerElements_stores (x := lit ((21 : Nat) : ℚ)) hs2) hs2
      (fun i j _ _ => by rw [pow_nat _ (by omega)]; exact Ext.finite_fin _)
    simp only [e4, e5, Res.mapErr_ok, Res.ok_bind, C51_overflow XR rfl (le_refl 21)]
    rfl
  unfold advance matrixStep
  simp only [e1, Res.mapErr_ok, Res.ok_bind, or_true, if_true, reduceCtorEq, if_false, half_step, e2,
    hloop]
  rfl

/-- C51: up to order 20 the update applies the matrix whose entries are
`δ + Σ (W/2·τ)ᵏ / k!` with the powers taken entry by entry, `W` being the matrix of the
multiplication by the rate on the right, and normalises. -/
theorem C51_taylor (hs : Started i s) (hm : i.method = .TaylorSeries) (ho : i.order ≤ 20)
    (hc : i.config = d.fin) (ht : i.ts = .fin τ) (hA : Shows s A)
    (hmov : epsilon ℝ < ‖d.rate x y z‖) {W T : Matrix (Fin 4) (Fin 4) ℝ} {b : Fin 4 → ℝ}
    {p q r : ℝ} (hω : d.rate x y z = mkQ 0 p q r)
    (hW : W = !![0, -p, -q, -r; p, 0, r, -q; q, -r, 0, p; r, q, -p, 0])
    (hT : ∀ k l, T k l = (if k = l then 1 else 0) +
      ∑ n ∈ Finset.Icc 1 i.order, (W k l * (τ / 2)) ^ n / Nat.factorial n)
    (hb : b = T.mulVec ![A.re, A.imI, A.imJ, A.imK]) :
    ∃ s' B, update (.fin x) (.fin y) (.fin z) s = (.ok (), s') ∧ Shows s' B ∧
      (epsilon ℝ < ‖mkQ (b 0) (b 1) (b 2) (b 3)‖ →
        B = ‖mkQ (b 0) (b 1) (b 2) (b 3)‖⁻¹ • mkQ (b 0) (b 1) (b 2) (b 3)) ∧
      (‖mkQ (b 0) (b 1) (b 2) (b 3)‖ ≤ epsilon ℝ → B = 0) := by
  obtain ⟨⟨f, h⟩, h1, h2, h3, h4⟩ := hs.ready
  have hTR : ∀ k l : Fin 4, T k l = taylorR (fun i j => omegaR p q r i j * (τ / 2)) i.order k l := by
    intro k l
    rw [hT, taylorR]
    congr 1
    · simp [idR, Fin.ext_iff]
    · rw [Finset.range_eq_Ico, Finset.sum_Ico_add' (fun n => (omegaR p q r k l * (τ / 2)) ^ n *
        (1 / (Nat.factorial n : ℝ))) 0 i.order 1]
      refine Finset.sum_congr (by ext; simp [Nat.lt_succ_iff]) fun n _ => ?_
      have : W k l = omegaR p q r k l := by
        rw [hW]
        fin_cases k <;> fin_cases l <;> rfl
      rw [this]
      ring
  have hrow : ∀ k : Fin 4, b k = row (taylorR (fun i j => omegaR p q r i j * (τ / 2)) i.order) A k := by
    intro k
    rw [hb, Matrix.mulVec, dotProduct, Fin.sum_univ_four, hTR, hTR, hTR, hTR]
    rfl
  have hω1 : (d.rate x y z).imI = p := by rw [hω]; rfl
  have hω2 : (d.rate x y z).imJ = q := by rw [hω]; rfl
  have hω3 : (d.rate x y z).imK = r := by rw [hω]; rfl
  obtain ⟨s', e, hs'⟩ := h.moving (b := mkQ (b 0) (b 1) (b 2) (b 3)) hA (h4.trans (by rw [hc])) x y z
    hmov fun t v htt hv => by
      rw [h1, h2, hm, ht, h3, hω1, hω2, hω3]
      exact advance_taylor htt (hA.quat h) ho _ _ _ _ _ (hrow 0).symm (hrow 1).symm (hrow 2).symm
        (hrow 3).symm
  exact ⟨s', _, e, hs', fun hlt => if_pos hlt, fun hle => if_neg (not_lt.mpr hle)⟩

/-! ### C68: the second-order series is not a rotation by the rate -/

theorem mkQ_smul (k a b c e : ℝ) : k • mkQ a b c e = mkQ (k * a) (k * b) (k * c) (k * e) := by
  ext <;> rfl

theorem mkQ_neg (a b c e : ℝ) : -mkQ a b c e = mkQ (-a) (-b) (-c) (-e) := by
  ext <;> rfl

theorem mkQ_one : mkQ 1 0 0 0 = (1 : Quaternion ℝ) := by
  ext <;> rfl

theorem mkQ_star (a b c e : ℝ) : star (mkQ a b c e) = mkQ a (-b) (-c) (-e) := by
  apply Quaternion.ext
  · rw [Quaternion.re_star]; rfl
  · rw [Quaternion.imI_star]; rfl
  · rw [Quaternion.imJ_star]; rfl
  · rw [Quaternion.imK_star]; rfl

/-- C68: one second-order Taylor update from the identity replaces each component `t` of half the
rotation vector by `t + t²/2`. -/
theorem C68_second (hs : Started i s) (hm : i.method = .TaylorSeries) (ho : i.order = 2)
    (hc : i.config = d.fin) (ht : i.ts = .fin τ) (hA : Shows s 1)
    (hmov : epsilon ℝ < ‖d.rate x y z‖) {p q r : ℝ} (hω : (τ / 2) • d.rate x y z = mkQ 0 p q r)
    {b : Quaternion ℝ} (hb : b = mkQ 1 (p + p ^ 2 / 2) (q + q ^ 2 / 2) (r + r ^ 2 / 2)) :
    ∃ s', update (.fin x) (.fin y) (.fin z) s = (.ok (), s') ∧ Shows s' (‖b‖⁻¹ • b) := by
  obtain ⟨P, Q, R, hr⟩ : ∃ P Q R, d.rate x y z = mkQ 0 P Q R := ⟨_, _, _, rfl⟩
  rw [hr, mkQ_smul] at hω
  have h1 : τ / 2 * P = p := congrArg (·.imI) hω
  have h2 : τ / 2 * Q = q := congrArg (·.imJ) hω
  have h3 : τ / 2 * R = r := congrArg (·.imK) hω
  obtain ⟨s', B, e, hB, hB1, -⟩ := C51_taylor (T := fun k l => _) hs hm (by omega) hc ht hA hmov hr rfl
    (fun k l => rfl) rfl
  refine ⟨s', e, ?_⟩
  have h2n : ∀ a : ℝ, ∑ n ∈ Finset.Icc 1 i.order, a ^ n / (Nat.factorial n : ℝ) = a + a ^ 2 / 2 := by
    intro a
    rw [ho, Finset.sum_Icc_succ_top (by norm_num), Finset.Icc_self, Finset.sum_singleton]
    norm_num [Nat.factorial]
  simp only [h2n] at hB1
  have key := hB1
  simp only [Matrix.mulVec, dotProduct, Fin.sum_univ_four, Matrix.cons_val_zero, Matrix.cons_val_one,
    Matrix.cons_val, Matrix.of_apply, Quaternion.re_one, Quaternion.imI_one, Quaternion.imJ_one,
    Quaternion.imK_one, mul_zero, add_zero, mul_one, zero_mul, Fin.isValue, if_true, Fin.reduceEq, if_false,
    zero_add] at key
  have e0 : (0 : ℝ) ^ 2 / 2 = 0 := by norm_num
  rw [e0, add_zero, mul_comm _ (τ / 2), mul_comm _ (τ / 2), mul_comm _ (τ / 2), h1, h2, h3, ← hb] at key
  have h1b : 1 ≤ ‖b‖ := by
    rw [quat_norm, hb, normSq_mkQ, Real.one_le_sqrt]
    nlinarith [sq_nonneg (p + p ^ 2 / 2), sq_nonneg (q + q ^ 2 / 2), sq_nonneg (r + r ^ 2 / 2)]
  rw [← key (lt_of_lt_of_le eps_lt_one h1b)]
  exact hB

/-- C68: a rotation of 4 radians backwards about the first axis is not seen at all. -/
theorem C68_stuck (hs : Started i s) (hm : i.method = .TaylorSeries) (ho : i.order = 2)
    (hc : i.config = d.fin) (ht : i.ts = .fin τ) (hA : Shows s 1)
    (hmov : epsilon ℝ < ‖d.rate x y z‖) (hω : τ • d.rate x y z = mkQ 0 (-4) 0 0) :
    ∃ s', update (.fin x) (.fin y) (.fin z) s = (.ok (), s') ∧ Shows s' 1 := by
  have h : (τ / 2) • d.rate x y z = mkQ 0 (-2) 0 0 := by
    rw [show τ / 2 = (1 / 2) * τ by ring, mul_smul, hω, mkQ_smul]
    norm_num
  obtain ⟨s', e, hB⟩ := C68_second hs hm ho hc ht hA hmov h rfl
  refine ⟨s', e, ?_⟩
  have : mkQ 1 ((-2 : ℝ) + (-2) ^ 2 / 2) (0 + 0 ^ 2 / 2) (0 + 0 ^ 2 / 2) = 1 := by
    rw [← mkQ_one]
    norm_num
  rw [this, norm_one, inv_one, one_smul] at hB
  exact hB

/-- C68: two filters at the identity turned by opposite rates do not end in inverse attitudes. -/
theorem C68_reverse {s2 s2' : AR XR} {x' y' z' : ℝ} (hs : Started i s) (hs2 : Started i s2)
    (hm : i.method = .TaylorSeries) (ho : i.order = 2) (hc : i.config = d.fin) (ht : i.ts = .fin τ)
    (hτ : τ ≠ 0) (hA : Shows s 1) (hA2 : Shows s2 1) (hmov : epsilon ℝ < ‖d.rate x y z‖)
    (hopp : d.rate x' y' z' = -d.rate x y z) {B B' : Quaternion ℝ}
    (h : update (.fin x) (.fin y) (.fin z) s = (.ok (), s')) (hB : Shows s' B)
    (h' : update (.fin x') (.fin y') (.fin z') s2 = (.ok (), s2')) (hB' : Shows s2' B') :
    B' ≠ star B := by
  intro hBB
  obtain ⟨P, Q, R, hr⟩ : ∃ P Q R, d.rate x y z = mkQ 0 P Q R := ⟨_, _, _, rfl⟩
  obtain ⟨t, e, k⟩ := C68_second hs hm ho hc ht hA hmov (hr ▸ mkQ_smul _ _ _ _ _ |>.trans (by rw [mul_zero])) rfl
  obtain ⟨t', e', k'⟩ := C68_second hs2 hm ho hc ht hA2 (by rw [hopp, norm_neg]; exact hmov)
    (hopp ▸ hr ▸ mkQ_neg _ _ _ _ ▸ mkQ_smul _ _ _ _ _ |>.trans (by rw [neg_zero, mul_zero])) rfl
  rw [h] at e
  rw [h'] at e'
  obtain rfl := congrArg Prod.snd e
  obtain rfl := congrArg Prod.snd e'
  rw [hB.unique k, hB'.unique k', mkQ_smul, mkQ_smul, mkQ_star] at hBB
  generalize hn : ‖mkQ 1 (τ / 2 * P + (τ / 2 * P) ^ 2 / 2) _ _‖⁻¹ = n at hBB
  generalize ‖mkQ (1 : ℝ) _ _ _‖⁻¹ = n' at hBB
  have e0 : n' * 1 = n * 1 := congrArg (·.re) hBB
  have e1 := congrArg (·.imI) hBB
  have e2 := congrArg (·.imJ) hBB
  have e3 := congrArg (·.imK) hBB
  simp only [mkQ] at e1 e2 e3
  rw [mul_one, mul_one] at e0
  subst e0
  have hn0 : n' ≠ 0 := by
    rw [← hn, quat_norm, normSq_mkQ]
    refine inv_ne_zero (Real.sqrt_pos.mpr ?_).ne'
    nlinarith [sq_nonneg (τ / 2 * P + (τ / 2 * P) ^ 2 / 2), sq_nonneg (τ / 2 * Q + (τ / 2 * Q) ^ 2 / 2),
      sq_nonneg (τ / 2 * R + (τ / 2 * R) ^ 2 / 2)]
  have fin : ∀ a : ℝ, n' * (τ / 2 * -a + (τ / 2 * -a) ^ 2 / 2) = -(n' * (τ / 2 * a + (τ / 2 * a) ^ 2 / 2)) →
      a = 0 := by
    intro a ha
    have : n' * τ ^ 2 * a ^ 2 = 0 := by linear_combination 4 * ha
    have hne : n' * τ ^ 2 ≠ 0 := by positivity
    exact pow_eq_zero_iff two_ne_zero |>.mp ((mul_eq_zero.mp this).resolve_left hne)
  rw [hr, fin P e1, fin Q e2, fin R e3] at hmov
  have : ‖mkQ (0 : ℝ) 0 0 0‖ = 0 := norm_eq_zero.mpr rfl
  rw [this] at hmov
  exact absurd hmov (not_lt.mpr Linalg.eps_pos.le)

/-! ### Concrete cases -/

/-- Every finite configuration, step, method, order and quaternion starts a filter. -/
theorem AR.exists_started {w x y z : ℝ} (hc : i.config = d.fin) (hw : i.qw = .fin w) (hx : i.qx = .fin x)
    (hy : i.qy = .fin y) (hz : i.qz = .fin z) : ∃ s, Started i s ∧ Shows s (mkQ w x y z) := by
  obtain ⟨s0, e0, -⟩ := AR.new_fresh (F := XR)
  have h : (AR.initWith i s0).1 = .ok () := by
    refine (C46_iff e0).mpr ⟨?_, ?_⟩
    · rw [hc]
      intro a ha
      simp only [GyrometerConfig.fin, Gyrometer.ofParam, GyrometerConfig.params, List.mem_cons,
        List.not_mem_nil, or_false] at ha
      rcases ha with h | h | h | h | h | h | h | h | h | h | h | h <;> rw [h] <;> exact Ext.finite_fin _
    · rw [hw, hx, hy, hz]
      exact ⟨Ext.finite_fin _, Ext.finite_fin _, Ext.finite_fin _, Ext.finite_fin _⟩
  have h' : AR.initWith i s0 = (.ok (), (AR.initWith i s0).2) := by rw [← h]
  refine ⟨(AR.initWith i s0).2, ⟨s0, _, ⟨s0, e0, .refl _⟩, h', .refl _⟩, ?_⟩
  obtain ⟨v, ev, hv⟩ := C46_attitude ⟨s0, e0, .refl _⟩ h'
  rw [hw, hx, hy, hz] at hv
  exact ⟨v, ev, hv⟩

/-- A calibration with unit scales, a bias and one cross-axis term. -/
def AR.sampleConfig : GyrometerConfig ℝ where
  xScale := 1
  yScale := 1
  zScale := 1
  xy := 0
  xz := 0
  yx := 2
  yz := 0
  zx := 0
  zy := 0
  xBias := 0
  yBias := 1
  zBias := 0

theorem AR.sample_rate (x y z : ℝ) : AR.sampleConfig.rate x y z = mkQ 0 (x + 2 * (y - 1)) (y - 1) z := by
  simp [GyrometerConfig.rate, AR.sampleConfig]

theorem AR.sample_norm : ‖AR.sampleConfig.rate 3 1 4‖ = 5 := by
  rw [AR.sample_rate, quat_norm, normSq_mkQ]
  rw [show (0 : ℝ) ^ 2 + (3 + 2 * (1 - 1)) ^ 2 + (1 - 1) ^ 2 + 4 ^ 2 = 5 ^ 2 by norm_num]
  exact Real.sqrt_sq (by norm_num)

theorem AR.sample_moving : epsilon ℝ < ‖AR.sampleConfig.rate 3 1 4‖ := by
  rw [AR.sample_norm]
  linarith [eps_lt_one]

/-- The arguments of an `init` at the attitude (3/5, 4/5, 0, 0). -/
noncomputable def AR.sampleInit (m : NIM) (order : Nat) (τ : ℝ) : ARInit XR where
  qw := .fin (3 / 5)
  qx := .fin (4 / 5)
  qy := .fin 0
  qz := .fin 0
  config := AR.sampleConfig.fin
  ts := .fin τ
  method := m
  order := order

/-- A case of the hypotheses of C48–C51, for every method, order and step: a filter started at a unit
attitude that does not commute with the rate (3, 0, 4). -/
example (m : NIM) (order : Nat) (τ : ℝ) : ∃ s A, Started (AR.sampleInit m order τ) s ∧
    (AR.sampleInit m order τ).config = AR.sampleConfig.fin ∧ (AR.sampleInit m order τ).ts = .fin τ ∧
    Shows s A ∧ ‖A‖ = 1 ∧ epsilon ℝ < ‖AR.sampleConfig.rate 3 1 4‖ ∧
    AR.sampleConfig.rate 3 1 4 * A ≠ A * AR.sampleConfig.rate 3 1 4 := by
  obtain ⟨s, h1, h2⟩ := AR.exists_started (i := AR.sampleInit m order τ) (d := AR.sampleConfig) rfl rfl rfl
    rfl rfl
  refine ⟨s, _, h1, rfl, rfl, h2, ?_, AR.sample_moving, fun h => ?_⟩
  · rw [quat_norm, normSq_mkQ]
    norm_num
  · have := congrArg (·.imJ) h
    rw [AR.sample_rate, Quaternion.imJ_mul, Quaternion.imJ_mul] at this
    norm_num [mkQ] at this

/-- A case of C49: with the step π/5 the closed form turns the attitude by half a turn about
(3/5, 0, 4/5). -/
example : ∃ s s', Started (AR.sampleInit .ClosedForm 0 (Real.pi / 5)) s ∧
    AR.update (.fin 3) (.fin 1) (.fin 4) s = (.ok (), s') ∧
    Shows s' (mkQ (3 / 5) (4 / 5) 0 0 * NormedSpace.exp ((Real.pi / 5 / 2) • mkQ 0 3 0 4)) := by
  obtain ⟨s, h1, h2⟩ := AR.exists_started (i := AR.sampleInit .ClosedForm 0 (Real.pi / 5))
    (d := AR.sampleConfig) rfl rfl rfl rfl rfl
  obtain ⟨s', e, h⟩ := C49_closed h1 rfl rfl rfl h2 (by rw [quat_norm, normSq_mkQ]; norm_num)
    AR.sample_moving
  refine ⟨s, s', h1, e, ?_⟩
  rw [AR.sample_rate] at h
  norm_num at h
  exact h

/-- A case of C68: the filter sits at the identity and the rate is −4 about the first axis. -/
example : ∃ (i : ARInit XR) (s : AR XR), Started i s ∧ i.method = .TaylorSeries ∧ i.order = 2 ∧
    i.config = AR.sampleConfig.fin ∧ i.ts = .fin 1 ∧ Shows s 1 ∧
    epsilon ℝ < ‖AR.sampleConfig.rate (-4) 1 0‖ ∧ (1 : ℝ) • AR.sampleConfig.rate (-4) 1 0 = mkQ 0 (-4) 0 0 ∧
    AR.sampleConfig.rate 4 1 0 = -AR.sampleConfig.rate (-4) 1 0 := by
  obtain ⟨s, h1, h2⟩ := AR.exists_started (w := 1) (x := 0) (y := 0) (z := 0)
    (i := { AR.sampleInit .TaylorSeries 2 1 with qw := .fin 1, qx := .fin 0 })
    (d := AR.sampleConfig) rfl rfl rfl rfl rfl
  refine ⟨_, s, h1, rfl, rfl, rfl, rfl, mkQ_one ▸ h2, ?_, ?_, ?_⟩
  · rw [AR.sample_rate, quat_norm, normSq_mkQ]
    rw [show (0 : ℝ) ^ 2 + (-4 + 2 * (1 - 1)) ^ 2 + (1 - 1) ^ 2 + 0 ^ 2 = 4 ^ 2 by norm_num,
      Real.sqrt_sq (by norm_num)]
    linarith [eps_lt_one]
  · rw [AR.sample_rate, one_smul]
    norm_num
  · rw [AR.sample_rate, AR.sample_rate, mkQ_neg]
    norm_num

/-- A case of `C51_overflow` and of `C51_wraps`: both settings of the checks exist. -/
example : Scalar.overflowChecks XR = true ∧
    (@Utils.factorial XR (releaseScalar XR) AhrsError 21) = .ok 14197454024290336768 := by
  exact ⟨rfl, by decide +kernel⟩

end Verif
