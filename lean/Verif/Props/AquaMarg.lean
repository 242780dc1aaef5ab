import Verif.Props.AquaExact

/-
The MARG mode of the AQUA filter in exact arithmetic: unit attitudes (C54), the adaptive gain (C55, C56).
-/

set_option linter.unusedSectionVars false
set_option linter.unusedSimpArgs false

namespace Verif
open Scalar
namespace Aqua

section
variable {F : Type} [Scalar F]

theorem liftM_congr {ε σ α γ : Type} {r : Res ε α} {f g : α → Op ε σ γ} {s : σ}
    (h : ∀ a, f a s = g a s) : ((liftM r : Op ε σ α) >>= f) s = ((liftM r : Op ε σ α) >>= g) s := by
  rcases r with e | a
  · rfl
  · exact h a

theorem pure_bind' {ε σ α γ : Type} (a : α) (f : α → Op ε σ γ) :
    ((pure a : Op ε σ α) >>= f) = f a := rfl

theorem modify_bind' {ε σ γ : Type} (u : σ → σ) (f : Unit → Op ε σ γ) (s : σ) :
    (Op.modify u >>= f) s = f () (u s) := rfl

theorem bind_assoc' {ε σ α β γ : Type} (m : Op ε σ α) (f : α → Op ε σ β) (g : β → Op ε σ γ) :
    ((m >>= f) >>= g) = (m >>= fun a => f a >>= g) := by
  funext s
  simp only [Op.bind_run]
  rcases m s with ⟨e | a, t⟩ <;> rfl

/-- Prediction and the partial quaternion from the predicted gravity. -/
def margAcc (self : Aqua F) (aLocal accQuat : Vec F) (temp : Mat F) :
    Res AhrsError (Vec F × Mat F × Vec F) := do
  let gyrQuat ← predict self
  let t ← toGlobal temp gyrQuat aLocal
  let gx ← liftL (t.2.getElement 0)
  let gy ← liftL (t.2.getElement 1)
  let gz ← liftL (t.2.getElement 2)
  let (qw, qx, qy, qz) := accQuaternion gx gy gz
  let accQuat ← liftL (exec accQuat (Quat.fillq qw qx qy qz))
  .ok (gyrQuat, t.1, accQuat)

/-- The gain after the sample. -/
def newGain (self : Aqua F) (aLocal : Vec F) : Res AhrsError F :=
  if self.adaptive then self.calculateAdaptativeGain self.alpha aLocal self.g else .ok self.alpha

/-- The interpolated heading quaternion and a copy of the attitude. -/
def margMag (att : Vec F) (beta tMag : F) (mLocal magQuat : Vec F) (temp : Mat F) :
    Res AhrsError (Vec F × Vec F) := do
  let t ← toGlobal temp att mLocal
  let lx ← liftL (t.2.getElement 0)
  let ly ← liftL (t.2.getElement 1)
  let gamma := lx *ᶠ lx +ᶠ ly *ᶠ ly
  let (qw, qx, qy, qz) := magQuaternionPos lx ly gamma
  let magQuat ← liftL (exec magQuat (Quat.fillq qw qx qy qz))
  let magInterpolated ← interpolate magQuat beta tMag
  let copy ← liftL att.duplicate
  .ok (magInterpolated, copy)

/-- The second half: the heading correction. -/
def margTail (mLocal magQuat : Vec F) (temp : Mat F) : Op AhrsError (Aqua F) Unit := do
  let self ← Op.get
  let u ← margMag self.attitude self.beta self.tMag mLocal magQuat temp
  onAttitude (Quat.mul u.2 u.1)

theorem updateMarg_eq (aL mL aQ mQ : Vec F) (T : Mat F) (s : Aqua F) :
    updateMarg aL mL aQ mQ T s =
      ((liftM (margAcc s aL aQ T) : Op AhrsError (Aqua F) _) >>= fun t =>
        (liftM (newGain s aL) : Op AhrsError (Aqua F) _) >>= fun alpha =>
        Op.modify (fun self => { self with alpha := alpha }) >>= fun _ =>
        (liftM (interpolate t.2.2 alpha s.tAcc) : Op AhrsError (Aqua F) _) >>= fun accI =>
        onAttitude (Quat.mul t.1 accI) >>= fun _ => margTail mL mQ t.2.1) s := by
  unfold updateMarg margAcc
  rw [Op.get_bind']
  simp only [liftM_assoc, liftM_ok]
  refine liftM_congr fun gq => liftM_congr fun t => liftM_congr fun x => liftM_congr fun y =>
    liftM_congr fun z => liftM_congr fun q => ?_
  unfold newGain margTail margMag
  simp only [liftM_assoc, liftM_ok]
  rcases had : s.adaptive
  · simp only [Bool.false_eq_true, if_false, liftM_ok]
    rw [pure_bind', modify_bind', Op.get_bind']
  · simp only [if_true]
    rw [bind_assoc']
    refine liftM_congr fun al => ?_
    rw [modify_bind', modify_bind', Op.get_bind']

end

/-! ### The parts of a MARG update as functions of real numbers -/

/-- The prediction from the angular rate. -/
noncomputable def predQ (A ω : Quaternion ℝ) (τ : ℝ) : Quaternion ℝ := unitOf (A + (τ / 2) • (A * ω))

/-- Linear interpolation from the identity, normalised. -/
noncomputable def lerpQ (a : ℝ) (Q : Quaternion ℝ) : Quaternion ℝ := unitOf ((1 - a) • 1 + a • Q)

/-- Spherical interpolation from the identity. -/
noncomputable def slerpQ (a : ℝ) (Q : Quaternion ℝ) : Quaternion ℝ :=
  (Real.sin ((1 - a) * Real.arccos Q.re) / Real.sin (Real.arccos Q.re)) • 1 +
    (Real.sin (a * Real.arccos Q.re) / Real.sin (Real.arccos Q.re)) • Q

/-- `I` is the interpolation of `Q` with parameter `a` and threshold `t`. -/
def Inter (a t : ℝ) (Q I : Quaternion ℝ) : Prop :=
  (t < Q.re ∧ I = lerpQ a Q) ∨ (Q.re ≤ t ∧ -1 < Q.re ∧ Q.re < 1 ∧ I = slerpQ a Q)

variable {s : Aqua XR} {v : Vec XR} {A Q I : Quaternion ℝ}

theorem half_fin : (lit (1 / 2) : XR) = .fin (1 / 2) := by
  show Ext.fin _ = _
  norm_num

theorem predict_fin {p q r τ : ℝ} (hA : QuatIs s.attitude A) (h1 : s.gyr.getX = .ok (.fin p))
    (h2 : s.gyr.getY = .ok (.fin q)) (h3 : s.gyr.getZ = .ok (.fin r)) (ht : s.ts = .fin τ) :
    ∃ v, predict s = .ok v ∧ QuatIs v (predQ A (mkQ 0 p q r) τ) := by
  obtain ⟨v1, v2, v3, e1, e2, e3, -⟩ := AR.vector3 (F := XR) (Ext.finite_fin p) (Ext.finite_fin q)
    (Ext.finite_fin r)
  obtain ⟨m, e4, k4⟩ := AR.omega_fin p q r
  obtain ⟨m', e5, k5⟩ := AR.scale4 (1 / 2) k4
  obtain ⟨c, d, e6, e7, k7⟩ := AR.apply_run k5 hA
  obtain ⟨w, e8, k8⟩ := Mat.colToVector_ok k7 (show 0 < 1 by omega) fun i _ => Ext.finite_fin _
  obtain ⟨w', e9, k9⟩ := Vec.exec_of_stores (Vec.mulByScalarInPlace_stores (x := .fin τ) k8) k8
    fun _ _ => Ext.finite_fin _
  obtain ⟨x, e10, k10⟩ := Vec.exec_of_stores (Vec.add_stores (Vec.zeros_is (F := XR) (n := 4) (by omega) (by omega))
    hA k9) (Vec.zeros_is (by omega) (by omega)) (forall_lt_four.mpr ⟨Ext.finite_fin _, Ext.finite_fin _,
      Ext.finite_fin _, Ext.finite_fin _⟩)
  have k11 : QuatIs x (A + (τ / 2) • (A * mkQ 0 p q r)) := by
    refine k10.congr (forall_lt_four.mpr ?_)
    simp only [AR.row, AR.omegaR, seq4, Ext.mul_fin, Ext.add_fin]
    refine ⟨?_, ?_, ?_, ?_⟩ <;> congr 1 <;> simp [Quaternion.re_mul, Quaternion.imI_mul, Quaternion.imJ_mul,
      Quaternion.imK_mul] <;> ring
  obtain ⟨y, e12, k12⟩ := normalize_quat k11
  refine ⟨y, ?_, k12⟩
  unfold predict
  simp only [h1, h2, h3, Vec.init_new (F := XR) (n := 3) (by omega) (by omega),
    Vec.init_new (F := XR) (n := 4) (by omega) (by omega), e1, e2, e3, e4, half_fin, e5, e6, e7, e8, ht, e9,
    e10, exec_ok e12, Res.mapErr_ok, Res.ok_bind]

theorem inRange_fin {x : XR} : Utils.inRange x (lit 0) (lit 1) = true ↔ ∃ a : ℝ, x = .fin a ∧ 0 ≤ a ∧ a ≤ 1 := by
  unfold Utils.inRange
  rw [Ext.lit_zero, Ext.lit_one]
  rcases x with a | _ | _ | _
  · simp
  all_goals simp [Scalar.le, Ext.le]

theorem identity_fin : ∃ w : Vec XR, exec (Vec.zeros 4 : Vec XR) Quat.fillIdentity = .ok w ∧
    VecIs w 4 (fun i => .fin (seq4 (1 : ℝ) 0 0 0 i)) := by
  obtain ⟨w, e, h⟩ := identity_run (F := XR)
  refine ⟨w, exec_ok e, h.congr (forall_lt_four.mpr ?_)⟩
  exact ⟨Ext.lit_one, Ext.lit_zero, Ext.lit_zero, Ext.lit_zero⟩

theorem quat_seq (h : QuatIs v Q) : VecIs v 4 (fun i => .fin (seq4 Q.re Q.imI Q.imJ Q.imK i)) :=
  h.congr (forall_lt_four.mpr ⟨rfl, rfl, rfl, rfl⟩)

theorem dot_identity : ∑ i ∈ Finset.range 4, seq4 (1 : ℝ) 0 0 0 i * seq4 Q.re Q.imI Q.imJ Q.imK i = Q.re := by
  simp [Finset.sum_range_succ, seq4]

/-- A threshold outside the unit interval. -/
theorem interpolate_threshold {x t : XR} (ht : ¬ ∃ b : ℝ, t = .fin b ∧ 0 ≤ b ∧ b ≤ 1) :
    interpolate v x t = .error (.err .InvalidAquaInterpolationTreshold) := by
  have : Utils.inRange t (lit 0) (lit 1) = false := by
    rw [← Bool.not_eq_true, inRange_fin]
    exact ht
  unfold interpolate
  simp only [this, Bool.not_false, if_true]

/-- A parameter outside the unit interval. -/
theorem interpolate_parameter {x : XR} {t : ℝ} (hv : QuatIs v Q) (h0 : 0 ≤ t) (h1 : t ≤ 1)
    (hx : ¬ ∃ b : ℝ, x = .fin b ∧ 0 ≤ b ∧ b ≤ 1) :
    interpolate v x (.fin t) = .error (.err (.LinalgError .InvalidAlpha)) := by
  have e0 : Utils.inRange (.fin t : XR) (lit 0) (lit 1) = true := inRange_fin.mpr ⟨t, rfl, h0, h1⟩
  obtain ⟨w, e1, -⟩ := identity_fin
  have hx' : ¬ ((lit 0 ≤ᶠ x) = true ∧ (x ≤ᶠ lit 1) = true) := by
    intro h
    exact hx (inRange_fin.mp (inRange_ok h.1 h.2))
  obtain ⟨k1, k2⟩ := C32_alpha (Vec.zeros 4 : Vec XR) w v x hx'
  unfold interpolate
  simp only [e0, Bool.not_true, Bool.false_eq_true, if_false,
    Vec.init_new (F := XR) (n := 4) (by omega) (by omega), e1, Res.mapErr_ok, Res.ok_bind, Quat.getQw_eq hv]
  split
  · rw [exec_err k1]
    rfl
  · rw [exec_err k2]
    rfl

/-- A parameter and a threshold within the unit interval. -/
theorem interpolate_fin {a t : ℝ} (hv : QuatIs v Q) (a0 : 0 ≤ a) (a1 : a ≤ 1) (h0 : 0 ≤ t) (h1 : t ≤ 1) :
    (∃ w I, interpolate v (.fin a) (.fin t) = .ok w ∧ QuatIs w I ∧ Inter a t Q I) ∨
    ((¬ ∃ I, Inter a t Q I) ∧ ∃ e, interpolate v (.fin a) (.fin t) = .error (.err (.LinalgError (.UtilsError e)))) := by
  have e0 : Utils.inRange (.fin t : XR) (lit 0) (lit 1) = true := inRange_fin.mpr ⟨t, rfl, h0, h1⟩
  obtain ⟨w, e1, k1⟩ := identity_fin
  have hz := Vec.zeros_is (F := XR) (n := 4) (by omega) (by omega)
  have hv' := quat_seq hv
  unfold interpolate
  simp only [e0, Bool.not_true, Bool.false_eq_true, if_false,
    Vec.init_new (F := XR) (n := 4) (by omega) (by omega), e1, Res.mapErr_ok, Res.ok_bind, Quat.getQw_eq hv,
    Ext.lt_fin]
  by_cases hq : t < Q.re
  · left
    obtain ⟨x, e2, k2⟩ := C32_lerp hz k1 hv' a0 a1
    have k3 : QuatIs x ((1 - a) • 1 + a • Q) := by
      refine k2.congr (forall_lt_four.mpr ?_)
      simp [seq4, Quaternion.re_one, Quaternion.imI_one, Quaternion.imJ_one, Quaternion.imK_one]
    obtain ⟨y, e3, k4⟩ := normalize_quat k3
    refine ⟨y, _, ?_, k4, Or.inl ⟨hq, rfl⟩⟩
    simp only [hq, decide_true, if_true, exec_ok e2, exec_ok e3, Res.mapErr_ok, Res.ok_bind]
  · simp only [hq, decide_false, Bool.false_eq_true, if_false]
    by_cases hb : -1 < Q.re ∧ Q.re < 1
    · left
      obtain ⟨hs, x, e2, k2⟩ := slerp_run hz k1 hv' a0 a1 (by rw [dot_identity]; exact hb) rfl
      rw [dot_identity] at hs k2
      have k3 : QuatIs x (slerpQ a Q) := by
        refine k2.congr (forall_lt_four.mpr ?_)
        unfold slerpQ
        simp only [seq4, Quaternion.re_add, Quaternion.imI_add, Quaternion.imJ_add, Quaternion.imK_add,
          Quaternion.re_smul, Quaternion.imI_smul, Quaternion.imJ_smul, Quaternion.imK_smul, Quaternion.re_one,
          Quaternion.imI_one, Quaternion.imJ_one, Quaternion.imK_one, smul_eq_mul]
        refine ⟨?_, ?_, ?_, ?_⟩ <;> congr 1 <;> field_simp
      refine ⟨x, _, ?_, k3, Or.inr ⟨not_lt.mp hq, hb.1, hb.2, rfl⟩⟩
      rw [exec_ok e2]
      rfl
    · right
      constructor
      · rintro ⟨I, ⟨h, -⟩ | ⟨-, h2, h3, -⟩⟩
        · exact hq h
        · exact hb ⟨h2, h3⟩
      · obtain ⟨e, e2⟩ := slerp_fails hz k1 hv' a0 a1 (by
          rw [dot_identity]
          by_contra hc
          rw [not_or, not_le, not_le] at hc
          exact hb hc)
        refine ⟨e, ?_⟩
        rw [exec_err e2]
        rfl

/-- What a successful interpolation returns. -/
theorem interpolate_inv {x t : XR} {w : Vec XR} (hv : QuatIs v Q) (h : interpolate v x t = .ok w) :
    ∃ a b I, x = .fin a ∧ t = .fin b ∧ (0 ≤ a ∧ a ≤ 1) ∧ (0 ≤ b ∧ b ≤ 1) ∧ QuatIs w I ∧ Inter a b Q I := by
  by_cases ht : ∃ b : ℝ, t = .fin b ∧ 0 ≤ b ∧ b ≤ 1
  · obtain ⟨b, rfl, b0, b1⟩ := ht
    by_cases hx : ∃ b : ℝ, x = .fin b ∧ 0 ≤ b ∧ b ≤ 1
    · obtain ⟨a, rfl, a0, a1⟩ := hx
      rcases interpolate_fin hv a0 a1 b0 b1 with ⟨w', I, e, k, hI⟩ | ⟨-, e, e1⟩
      · rw [h] at e
        obtain rfl := Except.ok.inj e
        exact ⟨a, b, I, rfl, rfl, ⟨a0, a1⟩, ⟨b0, b1⟩, k, hI⟩
      · rw [h] at e1
        cases e1
    · rw [interpolate_parameter hv b0 b1 hx] at h
      cases h
  · rw [interpolate_threshold ht] at h
    cases h

/-! ### Norms -/

theorem slerpQ_eq {a : ℝ} (h1 : -1 < Q.re) (h2 : Q.re < 1) :
    slerpQ a Q = Real.cos (a * Real.arccos Q.re) • 1 +
      (Real.sin (a * Real.arccos Q.re) / √(1 - Q.re ^ 2)) • (Q - (Q.re : Quaternion ℝ)) := by
  have hs : 0 < Real.sin (Real.arccos Q.re) := by
    rw [Real.sin_arccos]
    exact Real.sqrt_pos.mpr (by nlinarith)
  have hc : Real.cos (Real.arccos Q.re) = Q.re := Real.cos_arccos h1.le h2.le
  have hk : Real.sin ((1 - a) * Real.arccos Q.re) = Real.sin (Real.arccos Q.re) * Real.cos (a * Real.arccos Q.re) -
      Q.re * Real.sin (a * Real.arccos Q.re) := by
    rw [sub_mul, one_mul, Real.sin_sub, hc]
  unfold slerpQ
  rw [hk, ← Real.sin_arccos]
  generalize Real.sin (Real.arccos Q.re) = S at *
  generalize Real.sin (a * Real.arccos Q.re) = x
  generalize Real.cos (a * Real.arccos Q.re) = y
  apply Quaternion.ext <;> simp [Quaternion.re_one, Quaternion.imI_one, Quaternion.imJ_one, Quaternion.imK_one]
  field_simp
  ring

theorem slerpQ_normSq {a : ℝ} (h1 : -1 < Q.re) (h2 : Q.re < 1) :
    Quaternion.normSq (slerpQ a Q) = Real.cos (a * Real.arccos Q.re) ^ 2 +
      Real.sin (a * Real.arccos Q.re) ^ 2 * ((Quaternion.normSq Q - Q.re ^ 2) / (1 - Q.re ^ 2)) := by
  have hp : 0 < 1 - Q.re ^ 2 := by nlinarith
  have hr : √(1 - Q.re ^ 2) ^ 2 = 1 - Q.re ^ 2 := Real.sq_sqrt hp.le
  rw [slerpQ_eq h1 h2, Quaternion.normSq_def', Quaternion.normSq_def']
  simp [Quaternion.re_one, Quaternion.imI_one, Quaternion.imJ_one, Quaternion.imK_one]
  simp only [mul_pow, div_pow, hr]
  field_simp
  ring

theorem unit_of_inter {a t : ℝ} (ha : 0 ≤ a ∧ a ≤ 1) (ht : 0 ≤ t) (hQ : Quaternion.normSq Q = 1)
    (h : Inter a t Q I) : ‖I‖ = 1 := by
  rcases h with ⟨h, rfl⟩ | ⟨-, h1, h2, rfl⟩
  · refine unitOf_norm (norm_large ?_)
    have hs := unit_sum hQ
    rw [Quaternion.normSq_def']
    simp [Quaternion.re_one, Quaternion.imI_one, Quaternion.imJ_one, Quaternion.imK_one]
    have h3 : 0 ≤ a * (1 - a) * Q.re := mul_nonneg (mul_nonneg ha.1 (sub_nonneg.mpr ha.2)) (ht.trans h.le)
    nlinarith [sq_nonneg (1 - 2 * a)]
  · refine norm_one ?_
    rw [slerpQ_normSq h1 h2, hQ, div_self (by nlinarith)]
    linarith [Real.sin_sq_add_cos_sq (a * Real.arccos Q.re)]

/-- The interpolation of the partial quaternion from gravity never gets short. -/
theorem large_of_inter {g : Fin 3 → ℝ} {a t : ℝ} (ha : 0 ≤ a ∧ a ≤ 1) (ht : 0 ≤ t)
    (h : Inter a t (accQ g) I) : 1 / 2 ≤ Quaternion.normSq I := by
  have key : (1 / 2 ≤ (accQ g).re ^ 2 ∧ 0 < (accQ g).re) ∨ 1 / 2 ≤ (accQ g).imI ^ 2 := by
    unfold accQ
    split
    · rename_i hg
      left
      have hp : 0 < (1 - g 2) / 2 := by linarith
      exact ⟨by show 1 / 2 ≤ √((1 - g 2) / 2) ^ 2; rw [Real.sq_sqrt hp.le]; linarith, Real.sqrt_pos.mpr hp⟩
    · rename_i hg
      right
      have hp : 0 < (1 + g 2) / 2 := by linarith
      show 1 / 2 ≤ √((1 + g 2) / 2) ^ 2
      rw [Real.sq_sqrt hp.le]; linarith
  generalize accQ g = Q at *
  rcases h with ⟨h, rfl⟩ | ⟨-, h1, h2, rfl⟩
  · have hb : epsilon ℝ < ‖((1 - a) • 1 + a • Q : Quaternion ℝ)‖ := by
      rw [quat_norm]
      refine Real.lt_sqrt_of_sq_lt ?_
      have he : epsilon ℝ ^ 2 < 1 / 4 := by nlinarith [eps_lt_half, Linalg.eps_pos (K := ℝ)]
      refine he.trans ?_
      have hre : 0 < Q.re := lt_of_le_of_lt ht h
      rw [Quaternion.normSq_def']
      simp [Quaternion.re_one, Quaternion.imI_one, Quaternion.imJ_one, Quaternion.imK_one]
      have h3 : 0 ≤ a * (1 - a) * Q.re := mul_nonneg (mul_nonneg ha.1 (sub_nonneg.mpr ha.2)) hre.le
      have h4 : 0 ≤ a ^ 2 := sq_nonneg a
      have hm : 1 / 2 * a ^ 2 ≤ a ^ 2 * (Q.re ^ 2 + Q.imI ^ 2) := by
        rcases key with ⟨k, -⟩ | k <;> nlinarith [sq_nonneg Q.re, sq_nonneg Q.imI]
      nlinarith [sq_nonneg (a * Q.imJ), sq_nonneg (a * Q.imK), sq_nonneg (3 * a - 2)]
    have := unitOf_norm hb
    unfold lerpQ
    rw [Quaternion.normSq_eq_norm_mul_self, this]
    norm_num
  · rw [slerpQ_normSq h1 h2]
    have hp : 0 < 1 - Q.re ^ 2 := by nlinarith
    have hsc := Real.sin_sq_add_cos_sq (a * Real.arccos Q.re)
    have hn : Quaternion.normSq Q - Q.re ^ 2 = Q.imI ^ 2 + Q.imJ ^ 2 + Q.imK ^ 2 := by
      rw [Quaternion.normSq_def']; ring
    rw [hn]
    rcases key with ⟨k1, k2⟩ | k
    · have hc : Q.re ≤ Real.cos (a * Real.arccos Q.re) := by
        conv_lhs => rw [← Real.cos_arccos h1.le h2.le]
        have := Real.arccos_nonneg Q.re
        exact Real.cos_le_cos_of_nonneg_of_le_pi (mul_nonneg ha.1 this) (Real.arccos_le_pi _)
          (by nlinarith [ha.2])
      have : 0 ≤ Real.sin (a * Real.arccos Q.re) ^ 2 * ((Q.imI ^ 2 + Q.imJ ^ 2 + Q.imK ^ 2) / (1 - Q.re ^ 2)) := by
        positivity
      nlinarith
    · have hd : 1 / 2 ≤ (Q.imI ^ 2 + Q.imJ ^ 2 + Q.imK ^ 2) / (1 - Q.re ^ 2) := by
        rw [le_div_iff₀ hp]
        nlinarith [sq_nonneg Q.imJ, sq_nonneg Q.imK, sq_nonneg Q.re]
      nlinarith [sq_nonneg (Real.sin (a * Real.arccos Q.re)), sq_nonneg (Real.cos (a * Real.arccos Q.re))]

/-! ### A MARG update -/

theorem finite_of_mul {x : ℝ} {y : XR} (h : Finite ((.fin x : XR) *ᶠ y)) : ∃ t, y = .fin t := by
  obtain ⟨c, hc⟩ := Ext.finite_iff.mp h
  rcases y with t | _ | _ | _
  · exact ⟨t, rfl⟩
  all_goals
    change Ext.mul _ _ = _ at hc
    simp only [Ext.mul, Ext.infOf] at hc
    try split_ifs at hc
    try cases hc

/-- A time step that is not a number makes the prediction fail. -/
theorem predict_inv {p q r : ℝ} {w : Vec XR} (hA : QuatIs s.attitude A) (h1 : s.gyr.getX = .ok (.fin p))
    (h2 : s.gyr.getY = .ok (.fin q)) (h3 : s.gyr.getZ = .ok (.fin r)) (h : predict s = .ok w) :
    ∃ τ, s.ts = .fin τ := by
  obtain ⟨v1, v2, v3, e1, e2, e3, -⟩ := AR.vector3 (F := XR) (Ext.finite_fin p) (Ext.finite_fin q)
    (Ext.finite_fin r)
  obtain ⟨m, e4, k4⟩ := AR.omega_fin p q r
  obtain ⟨m', e5, k5⟩ := AR.scale4 (1 / 2) k4
  obtain ⟨c, d, e6, e7, k7⟩ := AR.apply_run k5 hA
  obtain ⟨w, e8, k8⟩ := Mat.colToVector_ok k7 (show 0 < 1 by omega) fun i _ => Ext.finite_fin _
  rcases (Vec.mulByScalarInPlace_stores (x := s.ts) k8).cases with ⟨hf, _⟩ | ⟨k, hk, _, _, e9⟩
  · exact finite_of_mul (hf 0 (by omega))
  · unfold predict at h
    simp only [h1, h2, h3, Vec.init_new (F := XR) (n := 3) (by omega) (by omega),
      Vec.init_new (F := XR) (n := 4) (by omega) (by omega), e1, e2, e3, e4, half_fin, e5, e6, e7, e8,
      exec_err e9, Res.mapErr_ok, Res.ok_bind] at h
    cases h

theorem margAcc_fin {p q r τ : ℝ} {va qa : Vec XR} {T : Mat XR} {a : Fin 3 → ℝ} {f : Nat → XR}
    {g : Nat → Nat → XR} (hA : QuatIs s.attitude A) (h1 : s.gyr.getX = .ok (.fin p))
    (h2 : s.gyr.getY = .ok (.fin q)) (h3 : s.gyr.getZ = .ok (.fin r)) (ht : s.ts = .fin τ)
    (hva : Vec3Is va a) (hqa : VecIs qa 4 f) (hT : MatIs T 3 1 g) :
    ∃ v T' w g', margAcc s va qa T = .ok (v, T', w) ∧ QuatIs v (predQ A (mkQ 0 p q r) τ) ∧ MatIs T' 3 1 g' ∧
      QuatIs w (accQ (unrot (predQ A (mkQ 0 p q r) τ) a)) := by
  obtain ⟨v, e1, k1⟩ := predict_fin hA h1 h2 h3 ht
  obtain ⟨T', l, g', e2, k2, hl⟩ := toGlobal_fin hT k1 hva
  obtain ⟨w, e3, k3⟩ := fill_fin hqa (accQ (unrot (predQ A (mkQ 0 p q r) τ) a))
  refine ⟨v, T', w, g', ?_, k1, k2, k3⟩
  have l0 : l.getElement 0 = .ok (.fin (unrot (predQ A (mkQ 0 p q r) τ) a 0)) := hl.get 0 (by omega)
  have l1 : l.getElement 1 = .ok (.fin (unrot (predQ A (mkQ 0 p q r) τ) a 1)) := hl.get 1 (by omega)
  have l2 : l.getElement 2 = .ok (.fin (unrot (predQ A (mkQ 0 p q r) τ) a 2)) := hl.get 2 (by omega)
  unfold margAcc
  simp only [e1, e2, l0, l1, l2, Res.mapErr_ok, Res.ok_bind, accQuaternion_fin, AR.comps, e3]

/-- The norm a vector reports. -/
noncomputable def shown (u : Fin 3 → ℝ) : ℝ := if norm3 u ≤ epsilon ℝ then 0 else norm3 u

/-- The gain after a sample of norm `n`. -/
noncomputable def gainX (s : Aqua XR) (n : XR) : XR :=
  let e := Scalar.abs ((n -ᶠ s.g) /ᶠ s.g)
  if e ≤ᶠ s.t1 then s.alpha
  else if (s.t1 <ᶠ e) && (e <ᶠ s.t2) then s.alpha *ᶠ (s.t1 -ᶠ e) /ᶠ s.t1 else lit 0

theorem newGain_eq {va : Vec XR} {a : Fin 3 → ℝ} (h : Vec3Is va a) : newGain s va =
    if s.adaptive then
      if s.t2 ≤ᶠ s.t1 then .error (.err .InvalidAdaptiveGainTresholds) else .ok (gainX s (.fin (shown a)))
    else .ok s.alpha := by
  unfold newGain calculateAdaptativeGain
  rw [norm_fin3 h]
  rfl

theorem margMag_fin {att vm qm : Vec XR} {T : Mat XR} {B : Quaternion ℝ} {u : Fin 3 → ℝ} {f : Nat → XR}
    {g : Nat → Nat → XR} (β t : XR) (hB : QuatIs att B) (hvm : Vec3Is vm u) (hqm : VecIs qm 4 f)
    (hT : MatIs T 3 1 g) :
    (0 < √(unrot B u 0 * unrot B u 0 + unrot B u 1 * unrot B u 1) + unrot B u 0 ∧ ∃ w d,
      QuatIs w (magPos (unrot B u 0) (unrot B u 1)) ∧ QuatIs d B ∧
      margMag att β t vm qm T = interpolate w β t >>= fun i => .ok (i, d)) ∨
    (√(unrot B u 0 * unrot B u 0 + unrot B u 1 * unrot B u 1) + unrot B u 0 ≤ 0 ∧ ∃ e,
      margMag att β t vm qm T = .error (.err (.LinalgError (.UtilsError e)))) := by
  obtain ⟨T', l, g', e2, k2, hl⟩ := toGlobal_fin hT hB hvm
  have l0 : l.getElement 0 = .ok (.fin (unrot B u 0)) := hl.get 0 (by omega)
  have l1 : l.getElement 1 = .ok (.fin (unrot B u 1)) := hl.get 1 (by omega)
  unfold margMag
  simp only [e2, l0, l1, Res.mapErr_ok, Res.ok_bind, Ext.mul_fin, Ext.add_fin]
  rcases lt_or_ge 0 (√(unrot B u 0 * unrot B u 0 + unrot B u 1 * unrot B u 1) + unrot B u 0) with h | h
  · left
    obtain ⟨w, e3, k3⟩ := fill_fin hqm (magPos (unrot B u 0) (unrot B u 1))
    obtain ⟨d, e4, k4⟩ := Vec.duplicate_ok hB (forall_lt_four.mpr ⟨Ext.finite_fin _,
      Ext.finite_fin _, Ext.finite_fin _, Ext.finite_fin _⟩)
    refine ⟨h, w, d, k3, k4, ?_⟩
    rw [magQuaternionPos_fin h]
    simp only [AR.comps, e3, e4, Res.mapErr_ok, Res.ok_bind]
  · right
    refine ⟨h, ?_⟩
    have hb := magQuaternionPos_bad h
    generalize magQuaternionPos (.fin (unrot B u 0) : XR) (.fin (unrot B u 1))
      (.fin (unrot B u 0 * unrot B u 0 + unrot B u 1 * unrot B u 1)) = c at hb ⊢
    obtain ⟨c0, c1, c2, c3⟩ := c
    simp only at hb ⊢
    rw [exec, Quat.fillq_eq hqm]
    rcases (Quat.storeAll_stores (w := c0) (x := c1) (y := c2) (z := c3) hqm).cases with
      ⟨hf, _⟩ | ⟨k, hk, _, _, e9⟩
    · exact absurd (hf 3 (by omega)) hb
    · rw [e9]
      exact ⟨_, rfl⟩

/-- What a run of a MARG update may do: it stops before the gain is stored, it stops before the attitude
is written, it stops with the attitude corrected by the acceleration only, or it succeeds. -/
inductive MargRun (s1 : Aqua XR) (A ω : Quaternion ℝ) (a m : Fin 3 → ℝ) : Res AhrsError Unit × Aqua XR → Prop
  | early (e : Fail AhrsError) (h : (¬ ∃ τ, s1.ts = .fin τ) ∨ (s1.adaptive = true ∧ (s1.t2 ≤ᶠ s1.t1) = true)) :
      MargRun s1 A ω a m (.error e, s1)
  | acc (e : Fail AhrsError) (x : XR) (τ : ℝ) (v : Vec XR) (ht : s1.ts = .fin τ)
      (hx : x = if s1.adaptive then gainX s1 (.fin (shown a)) else s1.alpha)
      (hv : QuatIs v (accQ (unrot (predQ A ω τ) a))) (he : interpolate v x s1.tAcc = .error e) :
      MargRun s1 A ω a m (.error e, { s1 with alpha := x })
  | mag (e : Fail AhrsError) (x t τ : ℝ) (I : Quaternion ℝ) (b : Vec XR) (ht : s1.ts = .fin τ)
      (hx : .fin x = if s1.adaptive then gainX s1 (.fin (shown a)) else s1.alpha)
      (h0 : 0 ≤ x ∧ x ≤ 1) (hta : s1.tAcc = .fin t) (ht0 : 0 ≤ t ∧ t ≤ 1)
      (hI : Inter x t (accQ (unrot (predQ A ω τ) a)) I) (hb : QuatIs b (predQ A ω τ * I))
      (he : (√(unrot (predQ A ω τ * I) (dir m) 0 * unrot (predQ A ω τ * I) (dir m) 0 +
          unrot (predQ A ω τ * I) (dir m) 1 * unrot (predQ A ω τ * I) (dir m) 1) +
          unrot (predQ A ω τ * I) (dir m) 0 ≤ 0 ∧ ∃ e', e = .err (.LinalgError (.UtilsError e'))) ∨
        ∃ v, QuatIs v (magPos (unrot (predQ A ω τ * I) (dir m) 0) (unrot (predQ A ω τ * I) (dir m) 1)) ∧
          interpolate v s1.beta s1.tMag = .error e) :
      MargRun s1 A ω a m (.error e, { s1 with alpha := .fin x, attitude := b })
  | ok (x t y u τ : ℝ) (I J : Quaternion ℝ) (b : Vec XR) (ht : s1.ts = .fin τ)
      (hx : .fin x = if s1.adaptive then gainX s1 (.fin (shown a)) else s1.alpha)
      (h0 : 0 ≤ x ∧ x ≤ 1) (hta : s1.tAcc = .fin t) (ht0 : 0 ≤ t ∧ t ≤ 1)
      (hI : Inter x t (accQ (unrot (predQ A ω τ) a)) I) (hy : s1.beta = .fin y) (hy0 : 0 ≤ y ∧ y ≤ 1)
      (hu : s1.tMag = .fin u) (hu0 : 0 ≤ u ∧ u ≤ 1)
      (hl : 0 < √(unrot (predQ A ω τ * I) (dir m) 0 * unrot (predQ A ω τ * I) (dir m) 0 +
        unrot (predQ A ω τ * I) (dir m) 1 * unrot (predQ A ω τ * I) (dir m) 1) +
        unrot (predQ A ω τ * I) (dir m) 0)
      (hJ : Inter y u (magPos (unrot (predQ A ω τ * I) (dir m) 0) (unrot (predQ A ω τ * I) (dir m) 1)) J)
      (hb : QuatIs b (unitOf (predQ A ω τ * I * J))) :
      MargRun s1 A ω a m (.ok (), { s1 with alpha := .fin x, attitude := b })

theorem onAttitude_exec {m : Op LinalgError (Vec XR) Unit} {w : Vec XR} (h : exec s.attitude m = .ok w) :
    onAttitude m s = (.ok (), { s with attitude := w }) := by
  obtain ⟨⟨⟩, h'⟩ := exec_eq_ok h
  exact onAttitude_ok h'

theorem quat_holds (h : QuatIs v Q) : v.Holds4 :=
  ⟨_, h, forall_lt_four.mpr ⟨Ext.finite_fin _, Ext.finite_fin _, Ext.finite_fin _, Ext.finite_fin _⟩⟩

theorem Ready.marg_cases (h : Ready s) (hmode : s.mode = .MARG) {gx gy gz ax ay az mx my mz : XR}
    {G : Gyrometer XR} {C : Accelerometer XR} {M : Magnetometer XR} {p q r : ℝ} {a m : Fin 3 → ℝ}
    (hA : QuatIs s.attitude A)
    (hg : Gyrometer.update gx gy gz s.gyr = (.ok (), G))
    (hc : Accelerometer.update ax ay az s.acc = (.ok (), C))
    (hm : Magnetometer.update mx my mz s.mag = (.ok (), M))
    (g1 : G.getX = .ok (.fin p)) (g2 : G.getY = .ok (.fin q)) (g3 : G.getZ = .ok (.fin r))
    (h1 : C.getX = .ok (.fin (a 0))) (h2 : C.getY = .ok (.fin (a 1))) (h3 : C.getZ = .ok (.fin (a 2)))
    (h4 : M.getX = .ok (.fin (m 0))) (h5 : M.getY = .ok (.fin (m 1))) (h6 : M.getZ = .ok (.fin (m 2))) :
    MargRun { s with gyr := G, acc := C, mag := M } A (mkQ 0 p q r) a m
      (Aqua.update (some gx) (some gy) (some gz) ax ay az mx my mz s) := by
  rw [h.marg_run hmode hg hc hm h1 h2 h3 h4 h5 h6]
  obtain ⟨va, vm, qa, qm, T, e0, k1, k2, k3, k4, k5⟩ := sensed_fin a m
  rw [e0, liftM_ok]
  simp only
  obtain ⟨s1, hs1⟩ : ∃ s1 : Aqua XR, s1 = { s with gyr := G, acc := C, mag := M } := ⟨_, rfl⟩
  rw [← hs1]
  have j1 : s1.gyr.getX = .ok (.fin p) := by rw [hs1]; exact g1
  have j2 : s1.gyr.getY = .ok (.fin q) := by rw [hs1]; exact g2
  have j3 : s1.gyr.getZ = .ok (.fin r) := by rw [hs1]; exact g3
  have j4 : QuatIs s1.attitude A := by rw [hs1]; exact hA
  clear hs1
  rw [Op.bind_run, updateMarg_eq]
  by_cases hts : ∃ τ, s1.ts = .fin τ
  swap
  · rcases hp : predict s1 with e | w
    · have : margAcc s1 va qa T = .error e := by
        unfold margAcc
        rw [hp]
        rfl
      rw [this]
      exact .early e (Or.inl hts)
    · exact absurd (predict_inv j4 j1 j2 j3 hp) hts
  obtain ⟨τ, hτ⟩ := hts
  obtain ⟨gq, T', aq, f', e1, l1, l2, l3⟩ := margAcc_fin j4 j1 j2 j3 hτ k1 k3 k5
  rw [e1, liftM_ok, newGain_eq k1]
  by_cases hth : s1.adaptive = true ∧ (s1.t2 ≤ᶠ s1.t1) = true
  · simp only [hth.1, hth.2, if_true]
    exact .early _ (Or.inr hth)
  obtain ⟨x, hx⟩ : ∃ x : XR, x = if s1.adaptive then gainX s1 (.fin (shown a)) else s1.alpha := ⟨_, rfl⟩
  have hgain : (if s1.adaptive = true then
      if (s1.t2 ≤ᶠ s1.t1) = true then .error (.err .InvalidAdaptiveGainTresholds)
        else .ok (gainX s1 (.fin (shown a)))
      else .ok s1.alpha : Res AhrsError XR) = .ok x := by
    rcases had : s1.adaptive
    · simp only [hx, had, Bool.false_eq_true, if_false]
    · have : ¬ (s1.t2 ≤ᶠ s1.t1) = true := fun h => hth ⟨had, h⟩
      simp only [hx, had, this, Bool.false_eq_true, if_false, if_true]
  rw [hgain, liftM_ok, modify_bind']
  simp only
  rcases hi : interpolate aq x s1.tAcc with e | ai
  · exact .acc e x τ aq hτ hx l3 hi
  rw [liftM_ok]
  obtain ⟨x', t, I, rfl, hta, h0, ht0, hai, hI⟩ := interpolate_inv l3 hi
  obtain ⟨b, e2, hb⟩ := mul_fin (s := s1.attitude) (quat_holds j4) l1 hai
  rw [Op.bind_ok (onAttitude_exec (s := { s1 with alpha := .fin x' }) e2)]
  unfold margTail
  rw [Op.get_bind']
  simp only
  rcases margMag_fin s1.beta s1.tMag hb k2 k4 l2 with ⟨hl, w, d, n1, n2, e3⟩ | ⟨hl, e, e3⟩
  · rw [e3]
    rcases hi2 : interpolate w s1.beta s1.tMag with e | mi
    · exact .mag e x' t τ I b hτ hx h0 hta ht0 hI hb (Or.inr ⟨w, n1, hi2⟩)
    · obtain ⟨y, u, J, hy, hu, hy0, hu0, hmi, hJ⟩ := interpolate_inv n1 hi2
      rw [Res.ok_bind, liftM_ok]
      obtain ⟨c, e4, hc'⟩ := mul_fin (s := b) (quat_holds hb) n2 hmi
      rw [onAttitude_exec (s := { s1 with alpha := .fin x', attitude := b }) e4]
      obtain ⟨w2, e5, k6⟩ := normalize_quat hc'
      simp only
      rw [onAttitude_ok (s := { s1 with alpha := .fin x', attitude := c }) e5]
      exact .ok x' t y u τ I J w2 hτ hx h0 hta ht0 hI hy hy0 hu hu0 hl hJ k6
  · rw [e3]
    exact .mag _ x' t τ I b hτ hx h0 hta ht0 hI hb (Or.inl ⟨hl, e, rfl⟩)

/-- An accepted angular rate is made of numbers. -/
theorem gyr_accepted {g G : Gyrometer XR} {x y z : XR} (hg : g.Reachable) (hi : g.initialized = true)
    (h : Gyrometer.update x y z g = (.ok (), G)) :
    ∃ p q r : ℝ, G.getX = .ok (.fin p) ∧ G.getY = .ok (.fin q) ∧ G.getZ = .ok (.fin r) := by
  obtain ⟨d, -, hc, -⟩ := C43_gyr_exact hg hi 0 0 0
  obtain ⟨⟨f1, f2, f3⟩, -⟩ := (C43_gyr_iff hg hc).mp (congrArg Prod.fst h)
  obtain ⟨x, rfl⟩ := Ext.finite_iff.mp f1
  obtain ⟨y, rfl⟩ := Ext.finite_iff.mp f2
  obtain ⟨z, rfl⟩ := Ext.finite_iff.mp f3
  obtain ⟨d', A', -, e, h'⟩ := C43_gyr_exact hg hi x y z
  rw [h] at e
  obtain rfl := congrArg Prod.snd e
  exact ⟨_, _, _, h'⟩

/-- Any call of `update` in the MARG mode. -/
theorem Ready.marg_any (h : Ready s) (hmode : s.mode = .MARG) (hA : QuatIs s.attitude A)
    (gx gy gz : Option XR) (ax ay az mx my mz : XR) :
    (∃ e s', Aqua.update gx gy gz ax ay az mx my mz s = (.error e, s') ∧ s'.attitude = s.attitude ∧
      s'.alpha = s.alpha) ∨
    ∃ G C M ω a m, MargRun { s with gyr := G, acc := C, mag := M } A ω a m
      (Aqua.update gx gy gz ax ay az mx my mz s) ∧ ω.re = 0 := by
  have start : ∀ r, updateGyr gx gy gz s = r → ∃ f : Unit → Op AhrsError (Aqua XR) Unit,
      Aqua.update gx gy gz ax ay az mx my mz s = (updateGyr gx gy gz >>= fun _ =>
        onAcc (Accelerometer.update ax ay az) >>= fun _ => onMag (Magnetometer.update mx my mz) >>= f) s := by
    intro r _
    unfold Aqua.update
    rw [Op.get_bind, if_neg (by rw [h.initialized]; decide), hmode]
    exact ⟨_, rfl⟩
  obtain ⟨f, ef⟩ := start _ rfl
  have early : ∀ e s1, updateGyr gx gy gz s = (.error e, s1) → s1.attitude = s.attitude → s1.alpha = s.alpha →
      ∃ e s', Aqua.update gx gy gz ax ay az mx my mz s = (.error e, s') ∧ s'.attitude = s.attitude ∧
        s'.alpha = s.alpha := by
    intro e s1 h1 h2 h3
    exact ⟨e, s1, by rw [ef, Op.bind_err h1], h2, h3⟩
  by_cases hall : ∃ x y z, gx = some x ∧ gy = some y ∧ gz = some z
  swap
  · left
    have : ∃ e, updateGyr gx gy gz s = (.error e, s) := by
      unfold updateGyr
      split
      · exact absurd ⟨_, _, _, rfl, rfl, rfl⟩ hall
      · exact ⟨_, rfl⟩
      · exact ⟨_, rfl⟩
    obtain ⟨e, he⟩ := this
    exact early e s he rfl rfl
  obtain ⟨x, y, z, rfl, rfl, rfl⟩ := hall
  rcases hg : Gyrometer.update x y z s.gyr with ⟨e | ⟨⟩, G⟩
  · left
    exact early e { s with gyr := G } (onGyr_run hg) rfl rfl
  rcases hc : Accelerometer.update ax ay az s.acc with ⟨e | ⟨⟩, C⟩
  · left
    refine ⟨e, { s with gyr := G, acc := C }, ?_, rfl, rfl⟩
    rw [ef, Op.bind_ok (show updateGyr (some x) (some y) (some z) s = _ from onGyr_run hg),
      Op.bind_err (onAcc_run (s := { s with gyr := G }) hc)]
  rcases hm : Magnetometer.update mx my mz s.mag with ⟨e | ⟨⟩, M⟩
  · left
    refine ⟨e, { s with gyr := G, acc := C, mag := M }, ?_, rfl, rfl⟩
    rw [ef, Op.bind_ok (show updateGyr (some x) (some y) (some z) s = _ from onGyr_run hg),
      Op.bind_ok (onAcc_run (s := { s with gyr := G }) hc),
      Op.bind_err (onMag_run (s := { s with gyr := G, acc := C }) hm)]
  right
  obtain ⟨p, q, r, g1, g2, g3⟩ := gyr_accepted h.gyr (h.gyr_initialized hmode) hg
  obtain ⟨a, a1, a2, a3⟩ := acc_accepted h.acc h.acc_initialized hc
  obtain ⟨m, m1, m2, m3⟩ := mag_accepted h.mag h.mag_initialized hm
  exact ⟨G, C, M, _, a, m, h.marg_cases hmode hA hg hc hm g1 g2 g3 a1 a2 a3 m1 m2 m3, rfl⟩

theorem Ready.quat (h : Ready s) : ∃ A, QuatIs s.attitude A := by
  obtain ⟨f, hv, hf⟩ := h.attitude
  obtain ⟨w, hw⟩ := Ext.finite_iff.mp (hf 0 (by omega))
  obtain ⟨x, hx⟩ := Ext.finite_iff.mp (hf 1 (by omega))
  obtain ⟨y, hy⟩ := Ext.finite_iff.mp (hf 2 (by omega))
  obtain ⟨z, hz⟩ := Ext.finite_iff.mp (hf 3 (by omega))
  exact ⟨mkQ w x y z, hv.congr (forall_lt_four.mpr ⟨hw, hx, hy, hz⟩)⟩

theorem quat_inj {P : Quaternion ℝ} (h : QuatIs v P) (k : QuatIs v Q) : P = Q := by
  have e : ∀ i, i < 4 → seq4 (.fin P.re : XR) (.fin P.imI) (.fin P.imJ) (.fin P.imK) i =
      seq4 (.fin Q.re) (.fin Q.imI) (.fin Q.imJ) (.fin Q.imK) i := fun i hi =>
    (h.elem (by omega) hi).symm.trans (k.elem (by omega) hi)
  obtain ⟨e0, e1, e2, e3⟩ := forall_lt_four.mp e
  exact Quaternion.ext _ _ (Ext.fin.inj e0) (Ext.fin.inj e1) (Ext.fin.inj e2) (Ext.fin.inj e3)

theorem Ready.quat_of_shows (h : Ready s) (hs : Shows s Q) : QuatIs s.attitude Q := by
  obtain ⟨A, hA⟩ := h.quat
  obtain ⟨v, e1, h1⟩ := shows_of h.initialized hA
  obtain ⟨w, e2, h2⟩ := hs
  rw [e1] at e2
  obtain rfl := Except.ok.inj e2
  rw [quat_inj h2 h1]
  exact hA

theorem shows_inj {P : Quaternion ℝ} (h : Shows s P) (k : Shows s Q) : P = Q := by
  obtain ⟨v, e1, h1⟩ := h
  obtain ⟨w, e2, h2⟩ := k
  rw [e1] at e2
  obtain rfl := Except.ok.inj e2
  exact quat_inj h1 h2

theorem predQ_unit {ω : Quaternion ℝ} {τ : ℝ} (hA : epsilon ℝ < ‖A‖) (hω : ω.re = 0) : ‖predQ A ω τ‖ = 1 := by
  refine unitOf_norm ?_
  have : A + (τ / 2) • (A * ω) = A * (1 + (τ / 2) • ω) := by
    rw [mul_add, mul_one, mul_smul_comm]
  rw [this, norm_mul]
  have h1 := AR.one_le_norm_step hω (τ / 2)
  nlinarith [norm_nonneg A]

theorem unitOf_zero : unitOf 0 = 0 := by unfold unitOf; simp

theorem unitOf_cases (b : Quaternion ℝ) : ‖unitOf b‖ = 1 ∨ unitOf b = 0 := by
  by_cases h : epsilon ℝ < ‖b‖
  · exact Or.inl (unitOf_norm h)
  · right
    unfold unitOf
    rw [if_neg h]

theorem predQ_zero (ω : Quaternion ℝ) (τ : ℝ) : predQ 0 ω τ = 0 := by
  unfold predQ
  simp [unitOf_zero]

/-- The norm before the last normalisation of a MARG update from an attitude that is not short. -/
theorem marg_norm {ω J : Quaternion ℝ} {a u : Fin 3 → ℝ} {x t y v τ : ℝ} (hA : epsilon ℝ < ‖A‖) (hω : ω.re = 0)
    (hx : 0 ≤ x ∧ x ≤ 1) (ht : 0 ≤ t) (hI : Inter x t (accQ a) I) (hy : 0 ≤ y ∧ y ≤ 1) (hv : 0 ≤ v)
    (hl : 0 < √(u 0 * u 0 + u 1 * u 1) + u 0) (hJ : Inter y v (magPos (u 0) (u 1)) J) :
    epsilon ℝ < ‖predQ A ω τ * I‖ ∧ epsilon ℝ < ‖predQ A ω τ * I * J‖ := by
  have h1 := predQ_unit (τ := τ) hA hω
  have h2 := norm_large (large_of_inter hx ht hI)
  have h3 := unit_of_inter hy hv (magPos_spec hl (z := 0)).1 hJ
  have h4 : ‖predQ A ω τ * I‖ = ‖I‖ := by rw [norm_mul, h1, one_mul]
  rw [norm_mul _ J, h4, h3, mul_one]
  exact ⟨h2, h2⟩

/-- The attitude is not short. -/
def Big (s : Aqua XR) : Prop := ∃ A, QuatIs s.attitude A ∧ epsilon ℝ < ‖A‖

theorem Ready.big (h : Ready s) (hmode : s.mode = .MARG) (hb : Big s)
    (gx gy gz : Option XR) (ax ay az mx my mz : XR) :
    Big (Aqua.update gx gy gz ax ay az mx my mz s).2 := by
  obtain ⟨A, hA, hn⟩ := hb
  rcases h.marg_any hmode hA gx gy gz ax ay az mx my mz with ⟨e, s', e1, e2, -⟩ | ⟨G, C, M, ω, a, m, hr, hω⟩
  · rw [e1]
    exact ⟨A, by rw [e2]; exact hA, hn⟩
  · generalize Aqua.update gx gy gz ax ay az mx my mz s = r at hr
    cases hr with
    | early e => exact ⟨A, hA, hn⟩
    | acc e x τ v ht hx hv he => exact ⟨A, hA, hn⟩
    | mag e x t τ I b ht hx h0 hta ht0 hI hb he =>
      refine ⟨_, hb, ?_⟩
      rw [norm_mul, predQ_unit hn hω, one_mul]
      exact norm_large (large_of_inter h0 ht0.1 hI)
    | ok x t y u τ I J b ht hx h0 hta ht0 hI hy hy0 hu hu0 hl hJ hb =>
      refine ⟨_, hb, ?_⟩
      rw [unitOf_norm (marg_norm hn hω h0 ht0.1 hI hy0 hu0.1 hl hJ).2]
      linarith [eps_lt_half]

end Aqua

open Aqua
section
variable {s s0 s1 s' : Aqua XR} {i : AquaInit XR} {A Q : Quaternion ℝ}

/-- C54: every successful MARG update shows a unit quaternion or zero, whatever happened before. -/
theorem C54_marg (hs : Started i s) (hm : i.mode = .MARG) {gx gy gz : Option XR} {ax ay az mx my mz : XR}
    (h : Aqua.update gx gy gz ax ay az mx my mz s = (.ok (), s')) : ∃ Q, Shows s' Q ∧ (‖Q‖ = 1 ∨ Q = 0) := by
  obtain ⟨hr, k⟩ := hs.ready
  obtain ⟨A, hA⟩ := hr.quat
  rcases hr.marg_any (k.mode.trans hm) hA gx gy gz ax ay az mx my mz with
    ⟨e, s1, e1, -⟩ | ⟨G, C, M, ω, a, m, hrun, hω⟩
  · rw [h] at e1
    cases congrArg Prod.fst e1
  · rw [h] at hrun
    cases hrun with
    | ok x t y u τ I J b ht hx h0 hta ht0 hI hy hy0 hu hu0 hl hJ hb =>
      exact ⟨_, shows_of hr.initialized hb, unitOf_cases _⟩

/-- C54: from a filter initialised with a quaternion that is not short, every MARG update that succeeds
shows a unit quaternion, also after updates that failed half way. -/
theorem C54_unit (h0 : Reachable s0) (hi : Aqua.init i s0 = (.ok (), s1)) (hm : i.mode = .MARG)
    (hA : Shows s1 A) (hn : epsilon ℝ < ‖A‖) (hl : Leads s1 s) {gx gy gz : Option XR}
    {ax ay az mx my mz : XR} (h : Aqua.update gx gy gz ax ay az mx my mz s = (.ok (), s')) :
    ∃ Q, Shows s' Q ∧ ‖Q‖ = 1 := by
  have hb : Big s := by
    clear h
    induction hl with
    | refl => exact ⟨A, (Started.ready ⟨s0, s1, h0, hi, .refl _⟩).1.quat_of_shows hA, hn⟩
    | @step t k hl ih =>
      obtain ⟨hr, hk⟩ := Started.ready ⟨s0, s1, h0, hi, hl⟩
      cases k with
      | init b =>
        show Big (Aqua.init b t).2
        rw [Ready.init hr.initialized b]
        exact ih
      | setGyr c => exact ih
      | setAcc c => exact ih
      | setMag c => exact ih
      | update gx gy gz ax ay az mx my mz => exact hr.big (hk.mode.trans hm) ih gx gy gz ax ay az mx my mz
  obtain ⟨hr, k⟩ := Started.ready ⟨s0, s1, h0, hi, hl⟩
  have hs' := hr.big (k.mode.trans hm) hb gx gy gz ax ay az mx my mz
  rw [h] at hs'
  obtain ⟨B, hB, hBn⟩ := hs'
  obtain ⟨Q, hQ, hc⟩ := C54_marg ⟨s0, s1, h0, hi, hl⟩ hm h
  have hr' : Ready s' := by
    have := (hr.call (.update gx gy gz ax ay az mx my mz)).1
    rwa [show Aqua.call (.update gx gy gz ax ay az mx my mz) s = _ from h] at this
  refine ⟨Q, hQ, hc.resolve_right ?_⟩
  rintro rfl
  rw [shows_inj (shows_of hr'.initialized hB) hQ, norm_zero] at hBn
  exact absurd hBn (not_lt.mpr Linalg.eps_pos.le)

/-- C54: a filter that shows the zero quaternion keeps showing it, in success. -/
theorem C54_zero (hs : Started i s) (hm : i.mode = .MARG) (h0 : Shows s 0) {gx gy gz : Option XR}
    {ax ay az mx my mz : XR} (h : Aqua.update gx gy gz ax ay az mx my mz s = (.ok (), s')) : Shows s' 0 := by
  obtain ⟨hr, k⟩ := hs.ready
  have hA := hr.quat_of_shows h0
  rcases hr.marg_any (k.mode.trans hm) hA gx gy gz ax ay az mx my mz with
    ⟨e, s1, e1, -⟩ | ⟨G, C, M, ω, a, m, hrun, hω⟩
  · rw [h] at e1
    cases congrArg Prod.fst e1
  · rw [h] at hrun
    cases hrun with
    | ok x t y u τ I J b ht hx h0 hta ht0 hI hy hy0 hu hu0 hl hJ hb =>
      rw [predQ_zero, zero_mul, zero_mul, unitOf_zero] at hb
      exact shows_of hr.initialized hb

end

/-! ### C55, C56: the adaptive gain -/

/-- Three raw readings. -/
structure Sample where
  g : Fin 3 → ℝ
  a : Fin 3 → ℝ
  m : Fin 3 → ℝ

/-- An update with three readings. -/
noncomputable def Aqua.feed (x : Sample) : Op AhrsError (Aqua XR) Unit :=
  Aqua.update (some (.fin (x.g 0))) (some (.fin (x.g 1))) (some (.fin (x.g 2))) (.fin (x.a 0)) (.fin (x.a 1))
    (.fin (x.a 2)) (.fin (x.m 0)) (.fin (x.m 1)) (.fin (x.m 2))

/-- The filter after a list of updates, whether they succeeded or not. -/
noncomputable def Aqua.feeds (s : Aqua XR) : List Sample → Aqua XR
  | [] => s
  | x :: l => feeds (Aqua.feed x s).2 l

/-- How far the norm of the corrected acceleration is from the reference, relative to the reference; a
norm up to the threshold counts as zero. -/
noncomputable def Sample.error (d : AccelerometerConfig ℝ) (γ : ℝ) (x : Sample) : ℝ :=
  |(if norm3 (d.correct (x.a 0) (x.a 1) (x.a 2)) ≤ epsilon ℝ then 0
    else norm3 (d.correct (x.a 0) (x.a 1) (x.a 2))) - γ| / |γ|

/-- What a sample of relative error `e` multiplies the gain with. -/
noncomputable def gainFactor (t1 t2 e : ℝ) : ℝ := if e ≤ t1 then 1 else if e < t2 then (t1 - e) / t1 else 0

namespace Aqua
variable {s s0 s1 s' : Aqua XR} {i : AquaInit XR} {d : AccelerometerConfig ℝ} {u v γ τ α t b : ℝ}

theorem abs_real (x : ℝ) : Scalar.abs (.fin x : XR) = .fin |x| := by
  rw [Ext.abs_fin]
  split
  · rename_i h
    rw [abs_of_nonneg h]
  · rename_i h
    rw [abs_of_neg (not_le.mp h)]

theorem feeds_append (s : Aqua XR) (l k : List Sample) : feeds s (l ++ k) = feeds (feeds s l) k := by
  induction l generalizing s with
  | nil => rfl
  | cons x l ih => exact ih _

/-- An adaptive MARG filter with sensible settings whose gain is `c`. -/
structure Adaptive (i : AquaInit XR) (d : AccelerometerConfig ℝ) (u v γ τ : ℝ) (s : Aqua XR) (c : ℝ) : Prop where
  ready : Ready s
  settings : Settings i s
  acc : s.getAccelerometerConfig = .ok d.fin
  alpha : s.alpha = .fin c
  mode : i.mode = .MARG
  adaptive : i.adaptive = true
  t1 : i.t1 = .fin u
  t2 : i.t2 = .fin v
  g : i.g.getD (lit (981 / 100)) = .fin γ
  ts : i.ts = .fin τ
  pos : 0 < u
  lt : u < v
  ref : γ ≠ 0

theorem Adaptive.gain {c : ℝ} (h : Adaptive i d u v γ τ s c) (n : ℝ) :
    gainX s (.fin n) = .fin (c * gainFactor u v (|n - γ| / |γ|)) := by
  unfold gainX gainFactor
  rw [h.alpha, h.settings.t1, h.settings.t2, h.settings.g, h.t1, h.t2, h.g]
  simp only [Ext.sub_fin, Ext.div_fin _ h.ref, abs_real, abs_div, Ext.le_fin, Ext.lt_fin, Ext.lit_zero]
  by_cases h1 : |n - γ| / |γ| ≤ u
  · simp only [h1, decide_true, if_true, mul_one]
  · simp only [h1, decide_false, Bool.false_eq_true, if_false, not_le.mp h1, decide_true, Bool.true_and]
    by_cases h2 : |n - γ| / |γ| < v
    · simp only [h2, decide_true, if_true, Ext.mul_fin, Ext.div_fin _ h.pos.ne', mul_div_assoc]
    · simp only [h2, decide_false, Bool.false_eq_true, if_false, mul_zero]

/-- One update of such a filter. -/
theorem Adaptive.run {c : ℝ} (h : Adaptive i d u v γ τ s c) {A : Quaternion ℝ} (hA : QuatIs s.attitude A)
    (x : Sample) : ∃ s1 ω m, MargRun s1 A ω (d.correct (x.a 0) (x.a 1) (x.a 2)) m (feed x s) ∧ ω.re = 0 ∧
      s1.attitude = s.attitude ∧ s1.initialized = true ∧ Adaptive i d u v γ τ s1 c ∧
      (∀ y, y.g = x.g → y.m = x.m → MargRun { s1 with acc := (Accelerometer.update (.fin (y.a 0)) (.fin (y.a 1))
        (.fin (y.a 2)) s.acc).2 } A ω (d.correct (y.a 0) (y.a 1) (y.a 2)) m (feed y s)) := by
  have hr := h.ready
  have hmode := h.settings.mode.trans h.mode
  obtain ⟨e, M, he, m0, m1, m2, m3⟩ := C43_mag_exact hr.mag hr.mag_initialized (x.m 0) (x.m 1) (x.m 2)
  obtain ⟨f, G, hf, g0, g1, g2, g3⟩ := C43_gyr_exact hr.gyr (hr.gyr_initialized hmode) (x.g 0) (x.g 1) (x.g 2)
  obtain ⟨C, c0, c1, c2, c3⟩ := acc_sample hr.acc hr.acc_initialized h.acc (x.a 0) (x.a 1) (x.a 2)
  refine ⟨_, _, _, hr.marg_cases hmode hA g0 c0 m0 g1 g2 g3 c1 c2 c3
    (m := e.correct (x.m 0) (x.m 1) (x.m 2)) m1 m2 m3, rfl, rfl, hr.initialized, ?_, ?_⟩
  · have k1 := frame_gyr (.fin (x.g 0) : XR) (.fin (x.g 1)) (.fin (x.g 2)) s
    have k2 := frame_acc (.fin (x.a 0) : XR) (.fin (x.a 1)) (.fin (x.a 2)) { s with gyr := G }
    have k3 := frame_mag (.fin (x.m 0) : XR) (.fin (x.m 1)) (.fin (x.m 2)) { s with gyr := G, acc := C }
    rw [onGyr_run g0] at k1
    rw [onAcc_run (s := { s with gyr := G }) c0] at k2
    rw [onMag_run (s := { s with gyr := G, acc := C }) m0] at k3
    have k := pre.trans (pre.trans k1 k2) k3
    exact ⟨hr.step k, h.settings.step k, (k.acc hr.acc).2.2.trans h.acc, h.alpha, h.mode, h.adaptive, h.t1,
      h.t2, h.g, h.ts, h.pos, h.lt, h.ref⟩
  · intro y hg hm
    obtain ⟨C', c0, c1, c2, c3⟩ := acc_sample hr.acc hr.acc_initialized h.acc (y.a 0) (y.a 1) (y.a 2)
    have := hr.marg_cases hmode hA g0 c0 m0 g1 g2 g3 c1 c2 c3
      (m := e.correct (x.m 0) (x.m 1) (x.m 2)) m1 m2 m3
    rw [c0]
    unfold feed
    rw [hg, hm]
    exact this

/-- The gain after one sample, and the reason for a failure. -/
theorem Adaptive.next {c : ℝ} (h : Adaptive i d u v γ τ s c) (x : Sample) :
    Adaptive i d u v γ τ (feed x s).2 (c * gainFactor u v (x.error d γ)) := by
  obtain ⟨A, hA⟩ := h.ready.quat
  obtain ⟨s1, ω, m, hrun, -, -, -, h1, -⟩ := h.run hA x
  have hst := frame_update (some (.fin (x.g 0) : XR)) (some (.fin (x.g 1))) (some (.fin (x.g 2))) (.fin (x.a 0))
    (.fin (x.a 1)) (.fin (x.a 2)) (.fin (x.m 0)) (.fin (x.m 1)) (.fin (x.m 2)) s
  change Step s (feed x s).2 at hst
  have key : (feed x s).2.alpha = .fin (c * gainFactor u v (x.error d γ)) := by
    have hg := h1.gain (shown (d.correct (x.a 0) (x.a 1) (x.a 2)))
    have had : s1.adaptive = true := h1.settings.adaptive.trans h1.adaptive
    generalize feed x s = r at hrun
    cases hrun with
    | early e hh =>
      exfalso
      rcases hh with hh | ⟨-, hh⟩
      · exact hh ⟨τ, h1.settings.ts.trans h1.ts⟩
      · rw [h1.settings.t1, h1.settings.t2, h1.t1, h1.t2, Ext.le_fin, decide_eq_true_iff] at hh
        exact absurd h1.lt (not_lt.mpr hh)
    | acc e x' τ v ht hx hv he =>
      rw [had, if_pos rfl, hg] at hx
      exact hx
    | mag e x' t τ I b ht hx h0 hta ht0 hI hb he =>
      rw [had, if_pos rfl, hg] at hx
      exact hx
    | ok x' t y u τ I J b ht hx h0 hta ht0 hI hy hy0 hu hu0 hl hJ hb =>
      rw [had, if_pos rfl, hg] at hx
      exact hx
  exact ⟨h.ready.step hst, h.settings.step hst, (hst.acc h.ready.acc).2.2.trans h.acc, key, h.mode, h.adaptive,
    h.t1, h.t2, h.g, h.ts, h.pos, h.lt, h.ref⟩

theorem Adaptive.feeds {c : ℝ} (h : Adaptive i d u v γ τ s c) (l : List Sample) :
    Adaptive i d u v γ τ (Aqua.feeds s l) (c * (l.map fun x => gainFactor u v (x.error d γ)).prod) := by
  induction l generalizing s c with
  | nil =>
    rw [List.map_nil, List.prod_nil, mul_one]
    exact h
  | cons x l ih =>
    have := ih (h.next x)
    rw [List.map_cons, List.prod_cons, ← mul_assoc]
    exact this

theorem adaptive_init (h0 : Reachable s0) (hi : Aqua.init i s0 = (.ok (), s)) (hm : i.mode = .MARG)
    (ha : i.adaptive = true) (h1 : i.t1 = .fin u) (h2 : i.t2 = .fin v) (hu : 0 < u) (huv : u < v)
    (hg : i.g.getD (lit (981 / 100)) = .fin γ) (hγ : γ ≠ 0) (ht : i.ts = .fin τ) (hα : i.alpha = .fin α)
    (hd : i.accelerometerConfig = d.fin) : Adaptive i d u v γ τ s α := by
  rcases h0.cases with hf | hf | hf
  · rcases hf.init i with ⟨-, s2, e, k1, k2, k3, -, -, k4, -⟩ | ⟨-, e, s2, e1, -⟩
    · rw [hi] at e
      obtain rfl := congrArg Prod.snd e
      exact ⟨k1, k2, k4.trans (by rw [hd]), k3.trans hα, hm, ha, h1, h2, hg, ht, hu, huv, hγ⟩
    · rw [hi] at e1
      cases congrArg Prod.fst e1
  · rw [hf.init i] at hi
    cases congrArg Prod.fst hi
  · rw [Ready.init hf.initialized i] at hi
    cases congrArg Prod.fst hi

end Aqua

section
variable {s s0 s1 s2 : Aqua XR} {i : AquaInit XR} {d : AccelerometerConfig ℝ} {u v γ τ α t b : ℝ}

/-- C55: in an adaptive MARG filter the gain is multiplied by one factor per sample: 1 up to the first
threshold, 0 from the second on, `(t1 - e) / t1`, which is negative, in between.  An update fails with
`InvalidAlpha`, leaving the attitude unchanged, exactly when the product is outside the unit interval. -/
theorem C55_gain (h0 : Reachable s0) (hi : Aqua.init i s0 = (.ok (), s)) (hm : i.mode = .MARG)
    (ha : i.adaptive = true) (h1 : i.t1 = .fin u) (h2 : i.t2 = .fin v) (hu : 0 < u) (huv : u < v)
    (hg : i.g.getD (lit (981 / 100)) = .fin γ) (hγ : γ ≠ 0) (ht : i.ts = .fin τ) (hα : i.alpha = .fin α)
    (hd : i.accelerometerConfig = d.fin) (hta : i.tAcc = .fin t) (ht0 : 0 ≤ t) (ht1 : t ≤ 1)
    (hb : i.beta = .fin b) (hb0 : 0 ≤ b) (hb1 : b ≤ 1) (l : List Sample) (x : Sample) {c : ℝ}
    (hc : c = α * (l.map fun x => gainFactor u v (x.error d γ)).prod * gainFactor u v (x.error d γ)) :
    ((Aqua.feed x (Aqua.feeds s l)).1 = .error (.err (.LinalgError .InvalidAlpha)) ↔ ¬ (0 ≤ c ∧ c ≤ 1)) ∧
    (¬ (0 ≤ c ∧ c ≤ 1) → getAttitude (Aqua.feed x (Aqua.feeds s l)).2 = getAttitude (Aqua.feeds s l)) := by
  have hA := (adaptive_init h0 hi hm ha h1 h2 hu huv hg hγ ht hα hd).feeds l
  generalize Aqua.feeds s l = s2 at hA
  obtain ⟨A, hq⟩ := hA.ready.quat
  obtain ⟨s3, ω, m, hrun, -, j1, j2, k, -⟩ := hA.run hq x
  have hg' := k.gain (shown (d.correct (x.a 0) (x.a 1) (x.a 2)))
  have had : s3.adaptive = true := k.settings.adaptive.trans k.adaptive
  have hc' : gainX s3 (.fin (shown (d.correct (x.a 0) (x.a 1) (x.a 2)))) = .fin c := hg'.trans (by rw [hc]; rfl)
  have htA : s3.tAcc = .fin t := k.settings.tAcc.trans hta
  have hbA : s3.beta = .fin b := k.settings.beta.trans hb
  have hout : ∀ {y : ℝ}, .fin y = (.fin c : XR) → (0 ≤ y ∧ y ≤ 1) → 0 ≤ c ∧ c ≤ 1 := fun e hy => by
    rw [← Ext.fin.inj e]; exact hy
  generalize Aqua.feed x s2 = r at hrun
  cases hrun with
  | early e hh =>
    exfalso
    rcases hh with hh | ⟨-, hh⟩
    · exact hh ⟨τ, k.settings.ts.trans k.ts⟩
    · rw [k.settings.t1, k.settings.t2, k.t1, k.t2, Ext.le_fin, decide_eq_true_iff] at hh
      exact absurd k.lt (not_lt.mpr hh)
  | acc e x' τ v ht hx hv he =>
    rw [had, if_pos rfl, hc'] at hx
    rw [hx, htA] at he
    have hatt : getAttitude { s3 with alpha := x' } = getAttitude s2 := by
      unfold getAttitude
      rw [← j1, hA.ready.initialized, j2]
    refine ⟨?_, fun _ => hatt⟩
    by_cases hcc : 0 ≤ c ∧ c ≤ 1
    · rcases interpolate_fin hv hcc.1 hcc.2 ht0 ht1 with ⟨w, I, e1, -⟩ | ⟨-, e', e1⟩
      · rw [he] at e1
        cases e1
      · rw [he] at e1
        rw [Except.error.inj e1]
        exact ⟨fun h => (by cases h), fun h => absurd hcc h⟩
    · rw [interpolate_parameter hv ht0 ht1 (by
        rintro ⟨b, hb, hb0⟩
        exact hcc (hout hb.symm hb0))] at he
      rw [← Except.error.inj he]
      exact ⟨fun _ => hcc, fun _ => rfl⟩
  | mag e x' t τ I b' ht hx h0 hta ht0 hI hb he =>
    rw [had, if_pos rfl, hc'] at hx
    have hcc := hout hx h0
    refine ⟨⟨fun h => ?_, fun h => absurd hcc h⟩, fun h => absurd hcc h⟩
    exfalso
    have h' := Except.error.inj h
    rcases he with ⟨-, e', he⟩ | ⟨w, hw, he⟩
    · rw [he] at h'
      cases h'
    · rw [hbA, h'] at he
      by_cases hu : ∃ b : ℝ, s3.tMag = .fin b ∧ 0 ≤ b ∧ b ≤ 1
      · obtain ⟨z, hz, hz0, hz1⟩ := hu
        rw [hz] at he
        rcases interpolate_fin hw hb0 hb1 hz0 hz1 with ⟨w, I, e1, -⟩ | ⟨-, e', e1⟩
        · rw [he] at e1
          cases e1
        · rw [he] at e1
          cases Except.error.inj e1
      · rw [interpolate_threshold hu] at he
        cases Except.error.inj he
  | ok x' t y u τ I J b' ht hx h0 hta ht0 hI hy hy0 hu hu0 hl hJ hb =>
    rw [had, if_pos rfl, hc'] at hx
    have hcc := hout hx h0
    exact ⟨⟨fun h => (by cases h), fun h => absurd hcc h⟩, fun h => absurd hcc h⟩

theorem Aqua.calm_prod {l : List Sample} (h : ∀ x ∈ l, x.error d γ ≤ u) :
    (l.map fun x => gainFactor u v (x.error d γ)).prod = 1 := by
  induction l with
  | nil => rfl
  | cons x l ih =>
    rw [List.map_cons, List.prod_cons, ih fun y hy => h y (List.mem_cons_of_mem _ hy), mul_one, gainFactor,
      if_pos (h x List.mem_cons_self)]

/-- C55: with a positive gain, the first sample whose error lies strictly between the thresholds makes the
update fail with `InvalidAlpha`, and so does every calm sample after it, however many follow. -/
theorem C55_stuck (h0 : Reachable s0) (hi : Aqua.init i s0 = (.ok (), s)) (hm : i.mode = .MARG)
    (ha : i.adaptive = true) (h1 : i.t1 = .fin u) (h2 : i.t2 = .fin v) (hu : 0 < u) (huv : u < v)
    (hg : i.g.getD (lit (981 / 100)) = .fin γ) (hγ : γ ≠ 0) (ht : i.ts = .fin τ) (hα : i.alpha = .fin α)
    (hpos : 0 < α) (hd : i.accelerometerConfig = d.fin) (hta : i.tAcc = .fin t) (ht0 : 0 ≤ t) (ht1 : t ≤ 1)
    (hb : i.beta = .fin b) (hb0 : 0 ≤ b) (hb1 : b ≤ 1) {l l' : List Sample} {x y : Sample}
    (hl : ∀ x ∈ l, x.error d γ ≤ u) (hx1 : u < x.error d γ) (hx2 : x.error d γ < v)
    (hl' : ∀ x ∈ l', x.error d γ ≤ u) (hy : y.error d γ ≤ u) :
    (Aqua.feed x (Aqua.feeds s l)).1 = .error (.err (.LinalgError .InvalidAlpha)) ∧
    (Aqua.feed y (Aqua.feeds s (l ++ x :: l'))).1 = .error (.err (.LinalgError .InvalidAlpha)) := by
  have hneg : α * ((u - x.error d γ) / u) < 0 :=
    mul_neg_of_pos_of_neg hpos (div_neg_of_neg_of_pos (by linarith) hu)
  have hfx : gainFactor u v (x.error d γ) = (u - x.error d γ) / u := by
    rw [gainFactor, if_neg (not_le.mpr hx1), if_pos hx2]
  constructor
  · refine (C55_gain h0 hi hm ha h1 h2 hu huv hg hγ ht hα hd hta ht0 ht1 hb hb0 hb1 l x rfl).1.mpr ?_
    rw [calm_prod hl, mul_one, hfx]
    exact fun h => absurd h.1 (not_le.mpr hneg)
  · refine (C55_gain h0 hi hm ha h1 h2 hu huv hg hγ ht hα hd hta ht0 ht1 hb hb0 hb1 (l ++ x :: l') y rfl).1.mpr ?_
    rw [List.map_append, List.prod_append, List.map_cons, List.prod_cons, calm_prod hl, calm_prod hl', hfx,
      gainFactor, if_pos hy, mul_one, mul_one, one_mul]
    exact fun h => absurd h.1 (not_le.mpr hneg)

theorem Aqua.inter_zero {t : ℝ} {Q I : Quaternion ℝ} (h : Inter 0 t Q I) : I = 1 := by
  rcases h with ⟨-, rfl⟩ | ⟨-, h1, h2, rfl⟩
  · unfold lerpQ
    rw [sub_zero, one_smul, zero_smul, add_zero, unitOf_unit (norm_one (by simp))]
  · have hs : Real.sin (Real.arccos Q.re) ≠ 0 := by
      rw [Real.sin_arccos]
      exact (Real.sqrt_pos.mpr (by nlinarith)).ne'
    unfold slerpQ
    rw [sub_zero, one_mul, div_self hs, zero_mul, Real.sin_zero, zero_div, zero_smul, one_smul, add_zero]

theorem Aqua.inter_unique {a t : ℝ} {Q I J : Quaternion ℝ} (h : Inter a t Q I) (k : Inter a t Q J) : I = J := by
  rcases h with ⟨h, rfl⟩ | ⟨h, -, -, rfl⟩ <;> rcases k with ⟨k, rfl⟩ | ⟨k, -, -, rfl⟩
  · rfl
  · exact absurd h (not_lt.mpr k)
  · exact absurd k (not_lt.mpr h)
  · rfl

/-- C56: after one sample whose error reaches the second threshold, whatever the later samples, the
acceleration no longer influences the attitude: two successful updates that differ only in it reach the
same attitude. -/
theorem C56_off (h0 : Reachable s0) (hi : Aqua.init i s0 = (.ok (), s)) (hm : i.mode = .MARG)
    (ha : i.adaptive = true) (h1 : i.t1 = .fin u) (h2 : i.t2 = .fin v) (hu : 0 < u) (huv : u < v)
    (hg : i.g.getD (lit (981 / 100)) = .fin γ) (hγ : γ ≠ 0) (ht : i.ts = .fin τ) (hα : i.alpha = .fin α)
    (hd : i.accelerometerConfig = d.fin) {l : List Sample} (hl : ∃ x ∈ l, v ≤ x.error d γ) {x y : Sample}
    (hxg : y.g = x.g) (hxm : y.m = x.m) (hx : Aqua.feed x (Aqua.feeds s l) = (.ok (), s1))
    (hy : Aqua.feed y (Aqua.feeds s l) = (.ok (), s2)) : ∃ Q, Shows s1 Q ∧ Shows s2 Q := by
  have hA := (adaptive_init h0 hi hm ha h1 h2 hu huv hg hγ ht hα hd).feeds l
  have hz : (l.map fun x => gainFactor u v (x.error d γ)).prod = 0 := by
    obtain ⟨x, hx, hv⟩ := hl
    refine List.prod_eq_zero (List.mem_map.mpr ⟨x, hx, ?_⟩)
    rw [gainFactor, if_neg (not_le.mpr (huv.trans_le hv)), if_neg (not_lt.mpr hv)]
  rw [hz, mul_zero] at hA
  generalize Aqua.feeds s l = s4 at hA hx hy
  obtain ⟨A, hq⟩ := hA.ready.quat
  obtain ⟨s3, ω, m, hrun, -, j1, j2, k, hrun2⟩ := hA.run hq x
  have hrun2 := hrun2 y hxg hxm
  have had : s3.adaptive = true := k.settings.adaptive.trans k.adaptive
  have g1 : ∀ n, gainX s3 (.fin n) = .fin 0 := fun n => by rw [k.gain, zero_mul]
  rw [hx] at hrun
  rw [hy] at hrun2
  cases hrun with
  | ok x1 t1 y1 u1 τ1 I1 J1 b1 ht1 hx1 h01 hta1 ht01 hI1 hy1 hy01 hu1 hu01 hl1 hJ1 hb1 =>
    cases hrun2 with
    | ok x2 t2 y2 u2 τ2 I2 J2 b2 ht2 hx2 h02 hta2 ht02 hI2 hy2 hy02 hu2 hu02 hl2 hJ2 hb2 =>
      rw [had, if_pos rfl, g1] at hx1
      change (.fin x2 : XR) = if s3.adaptive then gainX s3 _ else s3.alpha at hx2
      rw [had, if_pos rfl, g1] at hx2
      obtain rfl := Ext.fin.inj hx1
      obtain rfl := Ext.fin.inj hx2
      obtain rfl : y1 = y2 := Ext.fin.inj (hy1.symm.trans hy2)
      obtain rfl : u1 = u2 := Ext.fin.inj (hu1.symm.trans hu2)
      obtain rfl : τ1 = τ2 := Ext.fin.inj (ht1.symm.trans ht2)
      obtain rfl := inter_zero hI1
      obtain rfl := inter_zero hI2
      obtain rfl := inter_unique hJ1 hJ2
      exact ⟨_, shows_of j2 hb1, shows_of j2 hb2⟩

end
end Verif
